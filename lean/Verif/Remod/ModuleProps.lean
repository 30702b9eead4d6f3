import Verif.Remod.ModuleLemmas
import Verif.Framing.Props
import Verif.Items.Props
/-! # C52: re-encoding whole modules -/
namespace Verif.Remod
open Verif.Reader Verif.Items Verif.Items.Spec Verif.Parser Verif.Framing Verif.Reenc
  Verif.Reenc.Spec Spec

/-- **C52.** Whatever bytes are re-encoded as a core module, the result is parsed without error,
whatever its offset, and its payloads are, one by one and in order, those of the input with
indices renamed in their index spaces: items of sections, function bodies, the start function and
the name section; data counts, unknown sections and other custom sections are kept. -/
theorem c52_module (m : Maps) (f : Feats) (hm : MapsFit m f.toFeatures) (off : Nat)
    (data bytes : List UInt8) (hsize : off + data.length ≤ u64Max)
    (h : Reencodes m f off data bytes) (off' : Nat) (hsize' : off' + bytes.length ≤ u64Max) :
    ∃ tr tr', DriveAll (Parser.new off) data tr none ∧
      DriveAll (Parser.new off') bytes tr' none ∧
      List.Forall₂ (fun e e' => PayloadRenamed m f e.payload e'.payload) tr tr' := by
  obtain ⟨tr, ss, h1, h2, h3⟩ := h
  obtain ⟨hw, hr⟩ := module_wellFormed hm hsize h1 h2
  exact ⟨tr, moduleEvents off' ss, h1, c10_roundtrip off' ss bytes h3 hw hsize', hr off'⟩

/-- **C52, totality.** A module that is parsed without error is re-encoded exactly if all its
parts can be read: its items with the names in compact imports, its name section and its function
bodies. -/
theorem c52_iff (m : Maps) (f : Feats) (hm : MapsFit m f.toFeatures) (off : Nat)
    (data : List UInt8) (hsize : off + data.length ≤ u64Max) (hl : 5 * data.length < 2 ^ 32)
    (tr : List Event) (h : DriveAll (Parser.new off) data tr none) :
    (∃ ss, coreModule m f off data tr = some ss) ↔ ∀ ev ∈ tr, PayloadReadable f ev.payload := by
  obtain ⟨n, num, enc, rg, tr', rfl, hg⟩ := drive_module hsize h
  rw [List.forall_mem_cons]
  cases enc with
  | component =>
    constructor
    · rintro ⟨ss, hc⟩
      obtain ⟨l, ss', h1, h2, rfl⟩ := coreModule_cons.1 hc
      cases h1
    · rintro ⟨h1, -⟩
      cases h1
  | module =>
    rw [← groups_iff (m := m) hm hl (hg rfl).2]
    constructor
    · rintro ⟨ss, hc⟩
      obtain ⟨l, ss', h1, h2, rfl⟩ := coreModule_cons.1 hc
      exact ⟨rfl, ss', h2⟩
    · rintro ⟨-, ss', h2⟩
      exact ⟨_, coreModule_cons.2 ⟨[], ss', rfl, h2, rfl⟩⟩

/-- Two functions, the second calling the first, an export of the second, a start function, a
custom section, a name section with names of both functions, and an overlong section size. -/
def sampleCalls : List UInt8 :=
  [0, 0x61, 0x73, 0x6D, 1, 0, 0, 0,
   1, 0x84, 0, 1, 0x60, 0, 0,
   3, 3, 2, 0, 0,
   7, 5, 1, 1, 0x67, 0, 1,
   8, 1, 0,
   10, 9, 2, 2, 0, 0x0B, 4, 0, 0x10, 0, 0x0B,
   0, 3, 1, 0x78, 9,
   0, 14, 4, 0x6E, 0x61, 0x6D, 0x65, 1, 7, 2, 0, 1, 0x66, 1, 1, 0x67]

/-- Functions moved up by three, as after three more imports. -/
def sampleUp : Maps := { Maps.id with func := (· + 3) }

/-- `coreModule` and `encodeModule` on the payloads of the parser. -/
def runModule (m : Maps) (f : Feats) (off : Nat) (data : List UInt8) : Option (List UInt8) := do
  let (tr, out) ← driveFuel 60 (Parser.new off) [] data []
  match out with
  | none => encodeModule (← coreModule m f off data tr)
  | some _ => none

theorem runModule_sound {m : Maps} {f : Feats} {off : Nat} {data bytes : List UInt8}
    (h : runModule m f off data = some bytes) : Reencodes m f off data bytes := by
  unfold runModule at h
  simp only [Option.bind_eq_bind, Option.bind_eq_some_iff] at h
  obtain ⟨⟨tr, out⟩, h1, h2⟩ := h
  cases out with
  | some _ => cases h2
  | none =>
    simp only [Option.bind_eq_some_iff] at h2
    obtain ⟨ss, h2, h3⟩ := h2
    exact ⟨tr, ss, driveFuel_sound 60 h1, h2, h3⟩

example : Reencodes sampleUp sampleFeats 0 sampleCalls
    [0, 0x61, 0x73, 0x6D, 1, 0, 0, 0,
     1, 4, 1, 0x60, 0, 0,
     3, 3, 2, 0, 0,
     7, 5, 1, 1, 0x67, 0, 4,
     8, 1, 3,
     10, 9, 2, 2, 0, 0x0B, 4, 0, 0x10, 3, 0x0B,
     0, 3, 1, 0x78, 9,
     0, 14, 4, 0x6E, 0x61, 0x6D, 0x65, 1, 7, 2, 3, 1, 0x66, 4, 1, 0x67] ∧
    MapsFit sampleUp sampleFeats.toFeatures ∧ 5 * sampleCalls.length < 2 ^ 32 :=
  ⟨runModule_sound (by decide +kernel), ⟨fun _ h => h, .inr rfl, .inr rfl⟩, by decide⟩

/-- Custom sections have no influence on whether a module is valid, but a module with a malformed
name section is refused, even by the identical reencoder. -/
theorem c52_name_section : ∃ data tr, DriveAll (Parser.new 0) data tr none ∧
    (∀ ev ∈ tr, (∃ name r, ev.payload = .custom name r) ∨ PayloadReadable sampleFeats ev.payload) ∧
    coreModule Maps.id sampleFeats 0 data tr = none := by
  let data : List UInt8 := [0, 0x61, 0x73, 0x6D, 1, 0, 0, 0, 0, 7, 4, 0x6E, 0x61, 0x6D, 0x65, 1, 9]
  refine ⟨data, (runOf 0 data []).1, driveFuel_sound 60 (by decide +kernel), ?_, by decide +kernel⟩
  have : (runOf 0 data []).1 = [⟨8, .version 1 .module (0, 8)⟩,
      ⟨9, .custom nameName ⟨[4, 0x6E, 0x61, 0x6D, 0x65, 1, 9], 5, 10⟩⟩, ⟨0, .endOf 17⟩] := by
    decide +kernel
  rw [this]
  simp [PayloadReadable]

end Verif.Remod
