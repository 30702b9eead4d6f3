import Verif.Gc.RunLemmas
/-! # C57: the collected adapter is a part of the adapter -/
namespace Verif.Gc
open Verif.Reader Verif.Instr Verif.Items Verif.Reenc Verif.Reenc.Spec Spec

variable {f : Instr.Features} {m : Module} {main : Option (List UInt8)} {L : Live} {o : Out}

/-- What is put before the operators of exported functions: nothing, or a call of a function of the
result that allocates the stack. -/
def Spec.Prologue (o : Out) (first : List Operator) : Prop :=
  first = [] ∨ ∃ k ty b realloc sp st, first = [.idx .call k] ∧
    (outFuncs o)[k.toNat]? = some (.loc ty b) ∧ stackFunction realloc sp st = .ok b ∧
    o.types[ty.toNat]? = some emptyFuncType

theorem shape_lz (hp : Parsed f m) {e : Encoder} {si : Option Nat} {x : Lists}
    (h : Shape f m main L o e si x) {y : OutFunc} (hy : x.lz = [y]) :
    (outFuncs o)[(BitVec.ofNat 32 ((impFuncs m main L).length + x.ex.length +
      x.ltys.length)).toNat]? = some y := by
  obtain ⟨locs, ho, hlocs, -⟩ := h.outFuncs hp
  have hsum : (impFuncs m main L).length + (locFuncs m main L).length =
      (liveIter L.funcs m.funcs).length :=
    (List.length_eq_length_filter_add (l := liveIter L.funcs m.funcs)
      (fun p => staysImport main p.2)).symm
  have := liveIter_length L.funcs m.funcs
  have := hp.numFuncs
  have := h.exLen
  have hfl := forall₂_len h.fEnc
  have hll := forall₂_len hlocs
  have htl := forall₂_len h.lEnc
  rw [h.more, hy] at ho
  rw [BitVec.toNat_ofNat, Nat.mod_eq_of_lt (by omega), ho,
    List.getElem?_append_right (by omega), List.getElem?_append_right (by omega),
    List.getElem?_append_right (by omega),
    show (impFuncs m main L).length + x.ex.length + x.ltys.length - x.fs.length -
      x.ex.length - locs.length = 0 by omega]
  rfl

theorem shape_prologue (hp : Parsed f m) {e : Encoder} {si : Option Nat} {x : Lists}
    (h : Shape f m main L o e si x) : Prologue o (firstOps si) := by
  rcases h.lz with ⟨rfl, -⟩ | ⟨-, rfl, ty, b, r, p, h1, -, -, h2, h3⟩
  · exact .inl rfl
  · exact .inr ⟨_, ty, b, _, _, _, rfl, shape_lz hp h h1, h2, h3⟩

namespace PartSample
open LiveSample

def isOk : Except Fail Out → Bool
  | .ok _ => true
  | .error _ => false

theorem isOk_ok {r : Except Fail Out} (h : isOk r = true) : ∃ o, r = .ok o := by
  cases r with
  | ok o => exact ⟨o, rfl⟩
  | error e => cases h

/-- The initial values `i32.const n` of small `n`. -/
def constB (g : Global) : Bool :=
  match g.dfn with
  | .imp _ _ => true
  | .loc ⟨c⟩ => match readConstExpr feats c with
    | .ok (c', _) => c'.reader == c
    | .error _ => false

theorem const_of {g : Global} (h : constB g = true) : ∀ c, g.dfn = .loc c →
    ∃ r r', readConstExpr feats r = .ok (c, r') := by
  intro c hc
  obtain ⟨c⟩ := c
  simp only [constB, hc] at h
  cases hr : readConstExpr feats c with
  | error e => rw [hr] at h; cases h
  | ok q =>
    obtain ⟨⟨c'⟩, r'⟩ := q
    rw [hr] at h
    have h : c' = c := by simpa using h
    subst h
    exact ⟨_, r', hr⟩

theorem plain_parsed : Parsed feats plain :=
  ⟨by unfold ImportsFirst; decide +kernel, by unfold ImportsFirst; decide +kernel,
    fun g hg => const_of (List.all_eq_true.1 (by decide +kernel : plain.globals.all constB = true) g hg),
    by decide, by decide, by decide, by decide, by decide⟩

/-- An adapter with a stack pointer, a state of the allocation, a memory and an export that is not
needed. -/
def lazy : Module where
  types := [⟨[], 0⟩, ⟨[.i32], 1⟩]
  memories := [⟨.imp [0x65] [0x6D], ⟨false, false, 0, none, none⟩⟩]
  globals := [⟨.loc ⟨⟨[0x41, 0, 0x0B], 0, 0⟩⟩, ⟨.i32, true, false⟩⟩,
    ⟨.loc ⟨⟨[0x41, 0, 0x0B], 0, 0⟩⟩, ⟨.i32, true, false⟩⟩,
    ⟨.loc ⟨⟨[0x41, 1, 0x0B], 0, 0⟩⟩, ⟨.i32, true, false⟩⟩]
  funcs := [⟨.imp [0x61] [0x62], 1⟩, ⟨.loc ⟨[0, 0x0B], 0, 0⟩, 0⟩,
    ⟨.loc ⟨[0, 0x23, 0, 0x24, 1, 0x3F, 0, 0x1A, 0x0B], 0, 0⟩, 0⟩]
  exports := [⟨[0x67], .func, 1⟩, ⟨[0x66], .func, 2⟩]
  globalNames := [(0, stackPointer), (1, allocationState)]

theorem lazy_parsed : Parsed feats lazy :=
  ⟨by unfold ImportsFirst; decide +kernel, by unfold ImportsFirst; decide +kernel,
    fun g hg => const_of (List.all_eq_true.1 (by decide +kernel : lazy.globals.all constB = true) g hg),
    by decide, by decide, by decide, by decide, by decide⟩

end PartSample

/-- Whatever `encode` returns is a part of the module with renamed indices: there is a renaming
that gives each live item a place of its own, where the result has a copy of it in which all
indices are renamed, and all that the copies refer to is live. -/
theorem c57_encode (hp : Parsed f m) (h : encode f m main L = .ok o) :
    ∃ ρ first, Part f m main L o ρ first ∧ Prologue o first := by
  obtain ⟨e, si, x, hs⟩ := encode_shape hp h
  exact ⟨e.maps, firstOps si, hs.part hp, shape_prologue hp hs⟩

open LiveSample PartSample in
/-- Function 1 and what it needs is kept. -/
example : ∃ o ρ first, encode feats plain none plainLive = .ok o ∧
    Part feats plain none plainLive o ρ first ∧ Prologue o first :=
  let ⟨o, ho⟩ := isOk_ok (by decide +kernel : isOk (encode feats plain none plainLive) = true)
  let ⟨ρ, first, h⟩ := c57_encode plain_parsed ho
  ⟨o, ρ, first, ho, h⟩

/-- The same for `run`, which keeps the exports with the required names. -/
theorem c57_run (hp : Parsed f m) {required : List (List UInt8)}
    (h : run f m main required = .ok o) : ∃ es L ρ first,
      es.Perm (m.exports.filter fun e => required.contains e.name) ∧
      (∀ n ∈ required, ∃ e ∈ es, e.name = n) ∧
      (∀ x, live L x = true → Reach f { m with exports := es } x) ∧
      Part f { m with exports := es } main L o ρ first ∧ Prologue o first := by
  unfold run at h
  split at h
  · cases h
  · split at h
    · cases h
    · next hreq =>
      dsimp only at h
      have hperm := run_exports hp.names required
      generalize ((m.exports.map (·.name)).filter fun n => !required.contains n).foldl swapRemove
        m.exports = es at h hperm
      split at h
      · cases h
      · cases hL : liveness f { m with exports := es } with
        | error err => rw [hL] at h; cases h
        | ok L =>
          rw [hL] at h
          have hp' : Parsed f { m with exports := es } :=
            ⟨hp.funcs, hp.globals, hp.inits, hp.types, hp.numFuncs, hp.numGlobals, hp.numMemories,
              (hperm.map _).nodup_iff.2 (filter_names hp.names _)⟩
          obtain ⟨ρ, first, h1, h2⟩ := c57_encode hp' h
          refine ⟨es, L, ρ, first, hperm, ?_, fun x hx => c56_sound hL x hx, h1, h2⟩
          intro n hn
          have := List.all_eq_true.1 (Classical.not_not.1 hreq) n hn
          obtain ⟨e, he, hen⟩ := List.any_eq_true.1 this
          have hen : e.name = n := by simpa using hen
          refine ⟨e, hperm.mem_iff.2 (List.mem_filter.2 ⟨he, ?_⟩), hen⟩
          rw [hen]
          exact List.contains_iff_mem.2 hn

open PartSample in
/-- With a main module the stack is allocated lazily: there are three functions in the result, the
last one of which allocates the stack. -/
example : ∃ o, run LiveSample.feats lazy (some [0x72]) [[0x66]] = .ok o ∧ (outFuncs o).length = 3 :=
  let f : Except Fail Out → Bool := fun r => match r with
    | .ok o => (outFuncs o).length == 3
    | .error _ => false
  have : f (run LiveSample.feats lazy (some [0x72]) [[0x66]]) = true := by decide +kernel
  match run LiveSample.feats lazy (some [0x72]) [[0x66]], this with
  | .ok o, h => ⟨o, rfl, by simpa [f] using h⟩

end Verif.Gc
