import Verif.Framing.Run
import Verif.Parser.Props
/-!
# C10: section framing round trip
-/
namespace Verif.Framing
open Verif.Leb Verif.Reader Verif.Parser

/-- Sections of a module: types, functions, a start section, a data count, code with two
bodies, one data segment, a custom section and one with an unknown id. -/
def sample : List Sect :=
  [.items 1 1 [0x60, 0, 0], .custom [0x68, 0x69] [1, 2, 3], .items 3 2 [0, 0], .start 0,
   .dataCount 1, .code [[0, 0x0b], [0, 0x01, 0x0b]], .items 11 1 [1, 1, 7], .raw 77 [9, 9],
   .custom [] []]

instance (s : Sect) : Decidable s.Ok := by
  cases s <;> simp only [Sect.Ok] <;> infer_instance

theorem sample_wellFormed : WellFormed sample :=
  ⟨by decide +kernel, by decide +kernel, by decide +kernel, fun _ => by decide +kernel⟩

/-- **C10.** Whenever wasm-encoder produces a module from a well-formed list of sections
(known ids in the prescribed order, consistent counts, names within the reader's limits;
custom and unknown sections anywhere), parsing the bytes reports exactly those sections:
same order, same ids, counts, names and contents, with the readers and ranges at the right
offsets, all function bodies, and finally `End` at the end of the input. -/
theorem c10_roundtrip (off : Nat) (ss : List Sect) (bytes : List UInt8)
    (henc : encodeModule ss = some bytes) (hw : WellFormed ss)
    (hs : off + bytes.length ≤ u64Max) :
    DriveAll (Parser.new off) bytes (moduleEvents off ss) none := by
  obtain ⟨rfl, he⟩ := encodeModule_fold henc
  exact drive_module hw he off hs

/-- The same however the bytes arrive. -/
theorem c10_roundtrip_chunked (off : Nat) (ss : List Sect) (chunks : List (List UInt8))
    (henc : encodeModule ss = some chunks.flatten) (hw : WellFormed ss)
    (hs : off + chunks.flatten.length + 99 ≤ u64Max) (tr out)
    (hd : Drive (Parser.new off) [] [] chunks tr out) :
    tr = moduleEvents off ss ∧ out = none := by
  have h1 := c10_roundtrip off ss _ henc hw (by omega)
  refine c06_module_chunking off chunks tr _ out _ hs hd h1 ?_
  obtain ⟨h2, _⟩ := encodeModule_fold henc
  rw [h2]
  simp only [NotComponent, moduleHeader, List.cons_append]
  simp only [List.take_succ_cons, List.take_zero]
  decide

example : (encodeModule sample).isSome ∧ ((encodeModule sample).getD []).length = 56 := by
  decide +kernel

/-- The encoder refuses (panics) only when a length does not fit 32 bits: a list of sections
all of whose contents and bodies are shorter than 2^32 bytes is encoded. -/
theorem c10_encodes (ss : List Sect)
    (h : ∀ s ∈ ss, (content s).length < 2 ^ 32) :
    ∃ bytes, encodeModule ss = some bytes := by
  suffices ∀ b0, ∃ b, ss.foldlM addSection b0 = some b from this _
  induction ss with
  | nil => exact fun b0 => ⟨b0, rfl⟩
  | cons s ss ih =>
    intro b0
    have h1 : ∃ e, s.encode = some e := encode_total (h s (List.mem_cons_self ..))
    obtain ⟨e, h1⟩ := h1
    obtain ⟨b, hb⟩ := ih (fun x hx => h x (List.mem_cons_of_mem _ hx)) (b0 ++ [s.id] ++ e)
    refine ⟨b, ?_⟩
    rw [List.foldlM_cons]
    simp only [addSection, h1]
    exact hb

example : ∀ s ∈ sample, (content s).length < 2 ^ 32 := by decide +kernel

end Verif.Framing
