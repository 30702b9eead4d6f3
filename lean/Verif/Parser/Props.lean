import Verif.Parser.CountLemmas
/-!
# Properties of the streaming parser (C06 – C09, C38)

All of them quantify over every input, every division into chunks and every start offset
such that offsets fit in 64 bits.
-/
namespace Verif.Parser
open Verif.Reader

/-- A small module with a function, a code section, a custom section and a data count. -/
def sampleModule : List UInt8 :=
  [0x00, 0x61, 0x73, 0x6d, 0x01, 0x00, 0x00, 0x00,
   0x01, 0x04, 0x01, 0x60, 0x00, 0x00,
   0x03, 0x02, 0x01, 0x00,
   0x00, 0x03, 0x01, 0x61, 0x7f,
   0x0a, 0x04, 0x01, 0x02, 0x00, 0x0b]

/-- A component with a nested module and a start section. -/
def sampleComponent : List UInt8 :=
  [0x00, 0x61, 0x73, 0x6d, 0x0d, 0x00, 0x01, 0x00,
   0x01, 0x08, 0x00, 0x61, 0x73, 0x6d, 0x01, 0x00, 0x00, 0x00,
   0x09, 0x03, 0x00, 0x00, 0x00]

/-! ## C06 -/

/-- **C06.** Streaming a module: whatever the chunks, the payloads, the bytes consumed for
each of them, and the final result including the error message and offset are those of
parsing all the input at once. -/
theorem c06_module_chunking (off : Nat) (chunks : List (List UInt8)) (tr trW out outW)
    (hsize : off + chunks.flatten.length + 99 ≤ u64Max)
    (hc : Drive (Parser.new off) [] [] chunks tr out)
    (hw : DriveAll (Parser.new off) chunks.flatten trW outW)
    (hmod : NotComponent chunks.flatten) :
    tr = trW ∧ out = outW :=
  drive_chunks_module hc rfl rfl rfl (by simpa [Parser.new] using hsize)
    (by simpa [DriveAll] using hw) (drive_not_component hw hmod)

/-- Two divisions of the same input into chunks give the same run. -/
theorem c06_module_chunking_any (off : Nat) (chunks chunks' : List (List UInt8)) (tr tr' out out')
    (he : chunks.flatten = chunks'.flatten)
    (hsize : off + chunks.flatten.length + 99 ≤ u64Max)
    (hc : Drive (Parser.new off) [] [] chunks tr out)
    (hc' : Drive (Parser.new off) [] [] chunks' tr' out')
    (hmod : NotComponent chunks.flatten) :
    tr' = tr ∧ out' = out := by
  obtain ⟨trW, outW, hw⟩ := drive_total (Parser.new off) [] chunks.flatten []
  obtain ⟨rfl, rfl⟩ := c06_module_chunking off chunks tr trW out outW hsize hc hw hmod
  exact c06_module_chunking off chunks' tr' tr out' out (he ▸ hsize) hc' (he ▸ hw) (he ▸ hmod)

example : ∃ tr out, Drive (Parser.new 0) [] []
      [[0x00, 0x61], [], sampleModule.drop 2 |>.take 9, sampleModule.drop 11 |>.take 15,
        sampleModule.drop 26] tr out ∧
    DriveAll (Parser.new 0) sampleModule tr out ∧ out = none ∧ tr.length = 7 ∧
    0 + sampleModule.length + 99 ≤ u64Max ∧ NotComponent sampleModule :=
  ⟨(runOf 0 sampleModule []).1, (runOf 0 sampleModule []).2,
    driveFuel_sound 60 (by decide +kernel), driveFuel_sound 60 (by decide +kernel),
    by decide +kernel⟩

/-- The runs that the theorems talk about exist and are unique. -/
theorem c06_run_exists_unique (off : Nat) (chunks : List (List UInt8)) :
    ∃ tr out, Drive (Parser.new off) [] [] chunks tr out ∧
      ∀ tr' out', Drive (Parser.new off) [] [] chunks tr' out' → tr' = tr ∧ out' = out := by
  obtain ⟨tr, out, h⟩ := drive_total (Parser.new off) [] [] chunks
  exact ⟨tr, out, h, fun _ _ h' => drive_unique h h'⟩

/-! ## C07 -/

/-- **C07 is false of the code**: a component start section split over two chunks. -/
theorem c07_component_chunking_false :
    ¬ ∀ (off : Nat) (chunks : List (List UInt8)) (tr trW out outW),
      off + chunks.flatten.length + 99 ≤ u64Max →
      Drive (Parser.new off) [] [] chunks tr out →
      DriveAll (Parser.new off) chunks.flatten trW outW →
      tr = trW ∧ out.isSome = outW.isSome := by
  intro h
  have h1 : Drive (Parser.new 0) [] [] [sampleComponent.take 20, sampleComponent.drop 20] _ _ :=
    driveFuel_sound 40 (tr := (driveFuel 40 (Parser.new 0) [] []
      [sampleComponent.take 20, sampleComponent.drop 20]).get!.1)
      (out := some (.msg "component cannot have more than one start function" 20))
      (by decide +kernel)
  have h2 : DriveAll (Parser.new 0) [sampleComponent.take 20, sampleComponent.drop 20].flatten
      (driveFuel 40 (Parser.new 0) [] sampleComponent []).get!.1 none :=
    driveFuel_sound 40 (by decide +kernel)
  have := (h 0 _ _ _ _ _ (by decide +kernel) h1 h2).2
  cases this

/-- **C07, the part that holds**: for inputs with no component start section (reported when
parsing all at once), all divisions into chunks give the same payloads and success or
failure; and for all inputs whatsoever a streaming run that succeeds agrees with parsing
all at once. What is missing: start sections that are split (see the witness above), and
equality of error messages inside nested modules, which may differ. -/
theorem c07_component_chunking_partial (off : Nat) (chunks : List (List UInt8)) (tr trW out outW)
    (hsize : off + chunks.flatten.length ≤ u64Max)
    (hc : Drive (Parser.new off) [] [] chunks tr out)
    (hw : DriveAll (Parser.new off) chunks.flatten trW outW)
    (hs : out = none ∨ ∀ ev ∈ trW, ¬ IsStart ev.payload) :
    tr = trW ∧ out.isSome = outW.isSome := by
  refine drive_chunks hc ⟨rfl, by simpa [Parser.new] using hsize, ?_⟩
    (by simpa [DriveAll] using hw) hs
  intro q hq
  simp at hq
  subst hq
  simp only [Parser.new, Option.getD_none]
  omega

example : ∃ tr, Drive (Parser.new 0) [] []
      [[0x00, 0x61], sampleComponent.drop 2 |>.take 11, sampleComponent.drop 13] tr none ∧
    DriveAll (Parser.new 0) sampleComponent tr none ∧ tr.length = 6 :=
  ⟨(runOf 0 sampleComponent []).1, driveFuel_sound 60 (by decide +kernel),
    driveFuel_sound 60 (by decide +kernel), by decide +kernel⟩

/-! ## C08 -/

/-- **C08a.** `NeedMoreData` is only answered when `eof` is not set and asks for a positive
number of bytes; a parsed chunk lies inside the buffer and, unless it is `End`, is not
empty. -/
theorem c08_progress (p : Parser) (buf : List UInt8) (eof : Bool) (p' : Parser) :
    (∀ k, parse p buf eof = (.ok (.needMoreData k), p') → eof = false ∧ 0 < k) ∧
    (∀ n pl, parse p buf eof = (.ok (.parsed n pl), p') →
      n ≤ buf.length ∧ (0 < n ∨ ∃ o, pl = .endOf o)) := by
  refine ⟨fun k h => parse_hint_pos h, fun n pl h => ?_⟩
  obtain ⟨h1, h2⟩ := parse_progress h
  exact ⟨h1, h2.symm.imp (·.2) (·.1)⟩

/-- **C08b.** The driver terminates, whatever the parser, the buffer and the chunks. -/
theorem c08_terminates (p : Parser) (st : List Parser) (buf : List UInt8)
    (chunks : List (List UInt8)) : ∃ tr out, Drive p st buf chunks tr out :=
  drive_total p st buf chunks

/-- **C08c.** In every run, over modules and components, chunked in any way, successful or
not, the events consume consecutive pieces of the input, and the offsets, ranges and bytes
in the payloads are those of their pieces. -/
theorem c08_tiles (off : Nat) (chunks : List (List UInt8)) (tr out)
    (hsize : off + chunks.flatten.length ≤ u64Max)
    (hc : Drive (Parser.new off) [] [] chunks tr out) : Tiles off chunks.flatten tr := by
  refine drive_tiles hc (a := off) ⟨rfl, by simpa [Parser.new] using hsize, ?_⟩ (.inl rfl)
  intro q hq
  simp at hq
  subst hq
  simp only [Parser.new, Option.getD_none]
  omega

/-- **C08d.** When a module parses successfully, all of the input has been consumed and the
last payload is `End` at the end of the input. -/
theorem c08_module_consumes_all (off : Nat) (input : List UInt8) (tr)
    (hsize : off + input.length ≤ u64Max)
    (hc : DriveAll (Parser.new off) input tr none)
    (hmod : NotComponent input) :
    totalConsumed tr = input.length ∧ ∃ tr', tr = tr' ++ [⟨0, .endOf (off + input.length)⟩] := by
  have := drive_consumed_module hc rfl rfl rfl (by simpa [Parser.new] using hsize)
    (drive_not_component hc hmod) rfl rfl
  simpa [Parser.new] using this

/-- C08d does not extend to components: a nested module cut off by the end of the input at
a section boundary is accepted, and the `End` of the component is reported at an offset
past the end of the input. -/
theorem c08_component_past_end_false :
    ¬ ∀ (off : Nat) (input : List UInt8) (tr), off + input.length ≤ u64Max →
      DriveAll (Parser.new off) input tr none →
      ∃ tr', tr = tr' ++ [⟨0, .endOf (off + input.length)⟩] := by
  intro h
  -- a nested module section of 100 bytes of which only the 8 bytes of the preamble exist
  have h1 : DriveAll (Parser.new 0) ((sampleComponent.take 9) ++ [100] ++
      (sampleComponent.drop 10).take 8) _ none :=
    driveFuel_sound 40 (tr := [⟨8, .version 13 .component (0, 8)⟩,
      ⟨2, .nested true { Parser.new 10 with maxOffset := some 110 } (10, 110)⟩,
      ⟨8, .version 1 .module (10, 18)⟩, ⟨0, .endOf 18⟩, ⟨0, .endOf 110⟩]) (by decide +kernel)
  obtain ⟨tr', h2⟩ := h 0 _ _ (by decide +kernel) h1
  have := congrArg List.getLast? h2
  simp at this
  exact absurd this (by decide +kernel)

example : ∃ tr, DriveAll (Parser.new 7) sampleModule tr none ∧ 7 + sampleModule.length ≤ u64Max ∧
    totalConsumed tr = 29 :=
  ⟨(runOf 7 sampleModule []).1, driveFuel_sound 60 (by decide +kernel), by decide +kernel⟩

/-! ## C09 -/

/-- **C09, soundness.** In every run over a module the non-custom sections that are reported
are a subsequence of the prescribed order (so they are in order and none occurs twice). -/
theorem c09_order_sound (off : Nat) (chunks : List (List UInt8)) (tr out)
    (hsize : off + chunks.flatten.length + 99 ≤ u64Max)
    (hc : Drive (Parser.new off) [] [] chunks tr out)
    (hmod : NotComponent chunks.flatten) :
    (sectionIds tr).Sublist moduleOrder := by
  obtain ⟨trW, outW, hw⟩ := drive_total (Parser.new off) [] chunks.flatten []
  obtain ⟨rfl, rfl⟩ := c06_module_chunking off chunks tr trW out outW hsize hc hw hmod
  exact drive_order hw rfl rfl rfl (Nat.le_refl _) rfl (drive_not_component hw hmod)

/-- **C09, completeness.** When a module is rejected for its section order, the next byte of
the input is the id of a section that cannot be added in the prescribed order. Custom
sections and unknown sections do not enter. -/
theorem c09_order_complete (off : Nat) (chunks : List (List UInt8)) (tr o)
    (hsize : off + chunks.flatten.length + 99 ≤ u64Max)
    (hc : Drive (Parser.new off) [] [] chunks tr (some (.msg "section out of order" o)))
    (hmod : NotComponent chunks.flatten) :
    ∃ id ∈ moduleOrder, chunks.flatten[totalConsumed tr]? = some id ∧
      ¬ (sectionIds tr ++ [id]).Sublist moduleOrder := by
  obtain ⟨trW, outW, hw⟩ := drive_total (Parser.new off) [] chunks.flatten []
  obtain ⟨rfl, rfl⟩ := c06_module_chunking off chunks tr trW _ outW hsize hc hw hmod
  exact drive_ooo hw rfl rfl rfl (Nat.le_refl _) rfl (drive_not_component hw hmod) o rfl

/-- A module with a function section before a second type section. -/
example : ∃ tr o, Drive (Parser.new 0) [] [] [sampleModule.take 18, [1, 4, 1, 0x60, 0, 0]] tr
      (some (.msg "section out of order" o)) ∧ sectionIds tr = [1, 3] :=
  ⟨(runOf 0 (sampleModule.take 18 ++ [1, 4, 1, 0x60, 0, 0]) []).1, 20,
    driveFuel_sound 60 (by decide +kernel), by decide +kernel⟩

example : ∃ tr, Drive (Parser.new 0) [] [] [sampleModule.take 18, sampleModule.drop 18] tr none ∧
    sectionIds tr = [1, 3, 10] :=
  ⟨(runOf 0 sampleModule []).1, driveFuel_sound 60 (by decide +kernel), by decide +kernel⟩

/-! ## C38 -/

/-- **C38.** When a module parses successfully, it announces as many functions in its function
section as bodies in its code section, exactly that many bodies are reported, and if it has
a data count section, it gives the number of data segments (absent sections count as
empty). -/
theorem c38_counts (off : Nat) (chunks : List (List UInt8)) (tr)
    (hsize : off + chunks.flatten.length + 99 ≤ u64Max)
    (hc : Drive (Parser.new off) [] [] chunks tr none)
    (hmod : NotComponent chunks.flatten) :
    announced 3 tr = announced 10 tr ∧ bodies tr = announced 10 tr ∧
    ((∃ ev ∈ tr, ∃ c rg, ev.payload = .dataCount c rg) → announced 11 tr = announced 12 tr) := by
  have hord := c09_order_sound off chunks tr none hsize hc hmod
  obtain ⟨trW, outW, hw⟩ := drive_total (Parser.new off) [] chunks.flatten []
  obtain ⟨rfl, rfl⟩ := c06_module_chunking off chunks tr trW none outW hsize hc hw hmod
  have h1 := drive_counts hw rfl rfl rfl rfl (drive_not_component hw hmod) rfl
  have h2 := drive_bodies hw rfl rfl rfl rfl (drive_not_component hw hmod) rfl
  have hs := fun id => over_sum (counts_one hord id)
  simp only [Parser.new, hs] at h1
  simp only [Parser.new, State.rem, Nat.zero_add] at h2
  refine ⟨h1.1, h2, fun hd => ?_⟩
  have h3 := counts_mem hd
  have h4 := hs 12
  cases ho : over none (counts 12 tr) with
  | none =>
    unfold over at ho
    simp at ho
    exact absurd ho h3
  | some n =>
    rw [ho] at h4
    exact (h1.2 n ho).trans h4

/-- A module with two functions, a data count and one data segment. -/
example : ∃ tr, DriveAll (Parser.new 0)
      (sampleModule.take 14 ++ [3, 3, 2, 0, 0, 12, 1, 1, 10, 7, 2, 2, 0, 0x0b, 2, 0, 0x0b,
        11, 4, 1, 1, 1, 7]) tr none ∧
    announced 3 tr = 2 ∧ bodies tr = 2 ∧ announced 12 tr = 1 :=
  ⟨(runOf 0 (sampleModule.take 14 ++ [3, 3, 2, 0, 0, 12, 1, 1, 10, 7, 2, 2, 0, 0x0b, 2, 0, 0x0b,
        11, 4, 1, 1, 1, 7]) []).1, driveFuel_sound 60 (by decide +kernel), by decide +kernel⟩

end Verif.Parser
