import Verif.Valid.Final
/-! # Properties: core modules

C54. `Validator::validate_all` (`validateAll`) on the payloads of the parser, against a
specification of what a module says (`Spec.Says`) and of valid modules (`Spec.ModuleOk`). -/
namespace Verif.Valid.Props
open Verif.Reader Verif.Items Verif.Parser
open Verif.Types (ValType)
open Verif.TypeList (TypeList Reaches)
open Verif.Op Verif.Op.Typing Verif.Op.View Verif.Valid.Spec
open Verif.Instr (Operator)
open Verif.Std (BSearch)

variable {f : Feats} {bs : BSearch} {off : Nat} {data : List UInt8} {tr : List Event}
  {V V' : Validator}

/-- **C54.** Whatever bytes are given to a new validator: if it accepts them, they say a module
that is valid, function bodies included. The features do not include custom descriptors and
shared-everything-threads, which are off by default. -/
theorem c54_sound (hcd : f.customDescriptors = false) (hsh : f.sharedEverythingThreads = false)
    (hsize : off + data.length ≤ u64Max) (hd : DriveAll (Parser.new off) data tr none)
    (h : validateAll f bs .new tr none = .ok V') :
    ∃ M C, Says f.reader tr M ∧ ModuleOk C (BodyOk C) M :=
  accepted hcd hsize hd (s := .init) (ops := []) (os := []) ⟨.nil, rfl⟩ rfl h (.inl rfl)
    fun hh _ _ _ _ _ hx hps hv => func_ok hcd hsh hh hx hps hv

/-- **C54** for a validator that has validated other modules: its types come from any history of
modules and recursion groups, and there are at most 2^20 of them at the end (beyond that the code
panics). -/
theorem c54_reused (hcd : f.customDescriptors = false) (hsh : f.sharedEverythingThreads = false)
    (hsize : off + data.length ≤ u64Max) (hd : DriveAll (Parser.new off) data tr none)
    {ops os s} (hT : Reaches f.types ops os s) (hV : V.types = s.types)
    (h : validateAll f bs V tr none = .ok V') (hroom : V'.types.coreTypes.length ≤ 2 ^ 20) :
    ∃ M C, Says f.reader tr M ∧ ModuleOk C (BodyOk C) M :=
  accepted hcd hsize hd hT hV h (.inr hroom)
    fun hh _ _ _ _ _ hx hps hv => func_ok hcd hsh hh hx hps hv

/-- **C54** with shared-everything-threads. Missing: bodies with branch tables over shared types
need not be valid (see `c16_shared_table`); of these only the declarations of locals are. -/
theorem c54_shared_partial (hcd : f.customDescriptors = false)
    (hsize : off + data.length ≤ u64Max) (hd : DriveAll (Parser.new off) data tr none)
    (h : validateAll f bs .new tr none = .ok V') :
    ∃ M C, Says f.reader tr M ∧ ModuleOk C (fun ty b => ∃ x ps rs vs, FuncAt C ty x ps rs ∧
      List.Forall₂ (fun d v => d.1 = v.1 ∧ C.ValTy d.2 v.2) b.1 vs ∧
      (((∀ t, Operator.brTable t ∉ b.2) ∨ UnsharedTypes C b.2) →
        Valid (Fn.body C ps rs (InitSpec.expand vs) x.shared) b.2)) M :=
  accepted (body := BodyOkIf) hcd hsize hd (s := .init) (ops := []) (os := []) ⟨.nil, rfl⟩ rfl h
    (.inl rfl) fun hh _ _ _ _ _ hx hps hv => func_okIf hcd hh hx hps hv

/-! ## An example -/

namespace ModSample

/-- All features but custom descriptors and shared-everything-threads. -/
def feats : Feats where
  toFeatures := { fullFeatures with sharedEverythingThreads := false }
  multiMemory := true
  memory64 := true
  callIndirectOverlong := true
  compactImports := true
  mutableGlobal := true
  extendedConst := true
  customPageSizes := true

/-- A module with types `[] -> []` and `[i32] -> [i32]`, an imported global, two functions, a
table, a memory, two globals of which one holds a function, an export, a start function, an
element segment, a data count, bodies and a data segment. -/
def bytes : List UInt8 := [
  0x00, 0x61, 0x73, 0x6d, 0x01, 0x00, 0x00, 0x00,
  0x01, 0x09, 0x02, 0x60, 0x00, 0x00, 0x60, 0x01, 0x7f, 0x01, 0x7f,
  0x02, 0x08, 0x01, 0x01, 0x6d, 0x01, 0x67, 0x03, 0x7f, 0x00,
  0x03, 0x03, 0x02, 0x00, 0x01,
  0x04, 0x04, 0x01, 0x70, 0x00, 0x01,
  0x05, 0x03, 0x01, 0x00, 0x01,
  0x06, 0x0b, 0x02, 0x7f, 0x01, 0x23, 0x00, 0x0b, 0x70, 0x00, 0xd2, 0x01, 0x0b,
  0x07, 0x05, 0x01, 0x01, 0x66, 0x00, 0x01,
  0x08, 0x01, 0x00,
  0x09, 0x07, 0x01, 0x00, 0x41, 0x00, 0x0b, 0x01, 0x00,
  0x0c, 0x01, 0x01,
  0x0a, 0x0f, 0x02, 0x02, 0x00, 0x0b, 0x0a, 0x00, 0x20, 0x00, 0x23, 0x01, 0x6a, 0xd2, 0x00, 0x1a,
  0x0b,
  0x0b, 0x07, 0x01, 0x00, 0x41, 0x00, 0x0b, 0x01, 0x61]

def run (bs : List UInt8) : List Event := (runOf 0 bs []).1

def accepts (bs : List UInt8) : Bool :=
  match validateAll feats BSearch.linear .new (run bs) none with
  | .ok _ => true
  | .error _ => false

theorem run_ok : DriveAll (Parser.new 0) bytes (run bytes) none :=
  driveFuel_sound 60 (by decide +kernel)

theorem accepted : ∃ V', validateAll feats BSearch.linear .new (run bytes) none = .ok V' := by
  have h : accepts bytes = true := by decide +kernel
  unfold accepts at h
  split at h
  · next V' h1 => exact ⟨V', h1⟩
  · cases h

end ModSample

/-- The hypotheses of C54 hold for this module; with another start function it is rejected. -/
example : (∃ V', validateAll ModSample.feats BSearch.linear .new (ModSample.run ModSample.bytes) none =
      .ok V' ∧ DriveAll (Parser.new 0) ModSample.bytes (ModSample.run ModSample.bytes) none) ∧
    ModSample.accepts (ModSample.bytes.set 67 1) = false := by
  obtain ⟨V', h⟩ := ModSample.accepted
  exact ⟨⟨V', h, ModSample.run_ok⟩, by decide +kernel⟩

example : ∃ M C, Says ModSample.feats.reader (ModSample.run ModSample.bytes) M ∧
    ModuleOk C (BodyOk C) M ∧ M.start = some 0 := by
  obtain ⟨V', h⟩ := ModSample.accepted
  obtain ⟨M, C, h1, h2⟩ := c54_sound rfl rfl (by decide +kernel) ModSample.run_ok h
  exact ⟨M, C, h1, h2, by rw [h1.start]; decide +kernel⟩

/-! ## Exact imports (F31) -/

namespace ExactSample

/-- `(module (type (func)) (import "m" "f" (func (exact (type 0)))))` -/
def bytes : List UInt8 := [
  0x00, 0x61, 0x73, 0x6d, 0x01, 0x00, 0x00, 0x00,
  0x01, 0x04, 0x01, 0x60, 0x00, 0x00,
  0x02, 0x07, 0x01, 0x01, 0x6d, 0x01, 0x66, 0x20, 0x00]

end ExactSample

/-- An import of an exact function type, which belongs to custom descriptors, is accepted although
they are off. -/
theorem c54_exact_import : ∃ data tr V' is, ModSample.feats.customDescriptors = false ∧
    DriveAll (Parser.new 0) data tr none ∧
    validateAll ModSample.feats BSearch.linear .new tr none = .ok V' ∧
    Holds tr 2 (readImports ModSample.feats.reader) is ∧
    ∃ n i t, Imports.single n i ∈ is ∧ i.ty = .funcExact t := by
  have h : ModSample.accepts ExactSample.bytes = true := by decide +kernel
  have hs : sectionAt (ModSample.run ExactSample.bytes) 2 =
      some ⟨⟨[0x01, 0x01, 0x6d, 0x01, 0x66, 0x20, 0x00], 1, 16⟩, 1⟩ := by decide +kernel
  have hh : Holds (ModSample.run ExactSample.bytes) 2 (readImports ModSample.feats.reader)
      [.single 17 ⟨[0x6d], [0x66], .funcExact 0⟩] := by
    unfold Holds
    rw [hs]
    show SectionLimited.collect _ _ = _
    decide +kernel
  unfold ModSample.accepts at h
  split at h
  · next V' h1 =>
    exact ⟨ExactSample.bytes, _, V', _, rfl, driveFuel_sound 60 (by decide +kernel), h1, hh, _, _,
      0, List.mem_singleton.2 rfl, rfl⟩
  · cases h

end Verif.Valid.Props
