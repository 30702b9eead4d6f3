import Verif.Remod.Sections
import Verif.Items.Props
/-! # C51: re-encoding the items of sections -/
namespace Verif.Remod
open Verif.Reader Verif.Leb Verif.Items Verif.Items.Spec Verif.Reenc Verif.Reenc.Spec Spec

/-- **C51.** Whatever section of whatever kind is read item by item from any bytes, re-encoding
makes a section of the same kind with as many items, and reading these from its bytes gives, one
by one and in order, the same items with their indices renamed in their index spaces. -/
theorem c51_section (m : Maps) (f : Feats) (hm : MapsFit m f.toFeatures) (id : UInt8)
    (s : SectionLimited) (xs : Items) (h : collectItems f id s = some (.ok xs))
    (hr : ItemsReadable f.toFeatures xs) :
    ∃ e bytes, items m f xs = some e ∧ e.sect = some (.items id s.count bytes) ∧
      ∀ r : Reader, r.rest = encodeU32 s.count ++ bytes →
      ∃ s' ys, SectionLimited.new r = .ok s' ∧ s'.count = s.count ∧
        collectItems f id s' = some (.ok ys) ∧ ItemsRenamed m f.toFeatures xs ys := by
  obtain ⟨e, bytes, h1, h2, h3⟩ := section_sim hm h hr
  refine ⟨e, bytes, h1, h2, fun r hq => ?_⟩
  have h4 := Dec.u32 s.count r bytes hq
  obtain ⟨ys, h5, h6⟩ := h3 (r.advance (encodeU32 s.count).length)
    (by rw [Reader.rest_advance, hq]; simp)
  exact ⟨⟨r.advance (encodeU32 s.count).length, s.count⟩, ys, by simp only [SectionLimited.new, h4], rfl, h5, h6⟩

theorem readable_of_is {f : Instr.Features} {xs : Items} {e : Enc.Section} (h : ItemsIs f xs e) :
    ItemsReadable f xs := by
  cases xs with
  | imports xs =>
    cases e <;> first | exact h.elim | skip
    rename_i es
    replace h : List.Forall₂ (ImportsIs f) xs es := h
    intro x hx
    induction h with
    | nil => cases hx
    | cons h1 _ ih =>
      rcases List.mem_cons.1 hx with rfl | hx
      · revert h1
        unfold ImportsIs
        split
        · exact fun _ => trivial
        · exact fun ⟨_, xs, h, _⟩ => ⟨xs, h⟩
        · exact fun ⟨_, _, h⟩ => ⟨_, h⟩
        · exact False.elim
      · exact ih hx
  | _ => trivial

/-- Sections of every kind, read from the bytes of the samples of C48 and re-encoded with a
renaming. -/
example : ∀ e ∈ sampleSections, ∃ s xs, collectItems sampleFeats e.id s = some (.ok xs) ∧
    ItemsReadable sampleFeats.toFeatures xs ∧
    MapsFit { Maps.id with type := fun i => if i = 2 then 3 else i, global := (· + 1) }
      sampleFeats.toFeatures := by
  intro e he
  obtain ⟨count, bytes, -, h⟩ := c48_section sampleFeats e (sampleSections_fit e he)
  obtain ⟨s, xs, -, -, h1, h2⟩ := h ⟨encodeU32 count ++ bytes, 0, 0⟩ rfl
  refine ⟨s, xs, h1, readable_of_is h2, ?_, .inr rfl, .inr rfl⟩
  intro i hi
  show (if i = 2 then (3 : BitVec 32) else i).toNat < 2 ^ 20
  split
  · decide
  · exact hi

/-- Reads a section and writes the re-encoded one, without count. -/
def rewrite (m : Maps) (f : Feats) (id : UInt8) (bytes : List UInt8) : Option (List UInt8) := do
  let s ← (SectionLimited.new (Reader.new bytes 0)).toOption
  let xs ← (← collectItems f id s).toOption
  match ← (← items m f xs).sect with
  | .items _ _ b => some b
  | _ => none

/-- An export of function 3 and one of memory 0 with an overlong index. -/
example : rewrite { Maps.id with func := (· + 300), memory := fun _ => 2 } sampleFeats 7
    [2, 1, 0x66, 0, 3, 1, 0x6D, 2, 0x80, 0] = some [1, 0x66, 0, 0xAF, 0x02, 1, 0x6D, 2, 2] := by
  decide +kernel

/-- A section that could be read is re-encoded exactly if the names in its compact imports, which
are skipped when the section is read, can be read as well. -/
theorem c51_section_iff (m : Maps) (f : Feats) (hm : MapsFit m f.toFeatures) (id : UInt8)
    (s : SectionLimited) (xs : Items) (h : collectItems f id s = some (.ok xs)) :
    (∃ e, items m f xs = some e) ↔ ItemsReadable f.toFeatures xs := by
  refine ⟨fun ⟨e, he⟩ => items_readable he, fun hr => ?_⟩
  obtain ⟨e, -, h1, -⟩ := section_sim hm h hr
  exact ⟨e, h1⟩

/-- The names in compact imports do matter: a section that is read without complaint and cannot be
re-encoded, not even by the identical reencoder. -/
theorem c51_skipped_names : ∃ (s : SectionLimited) (xs : Items),
    collectItems sampleFeats 2 s = some (.ok xs) ∧ items Maps.id sampleFeats xs = none := by
  let s : SectionLimited := ⟨⟨[1, 0x65, 0, 0x7E, 0, 0, 1, 1, 0xFF], 0, 0⟩, 1⟩
  have h : (match collectItems sampleFeats 2 s with
    | some (.ok xs) => (items Maps.id sampleFeats xs).isNone
    | _ => false) = true := by decide +kernel
  split at h
  · next xs hx => exact ⟨s, xs, hx, by simpa using h⟩
  · cases h

end Verif.Remod
