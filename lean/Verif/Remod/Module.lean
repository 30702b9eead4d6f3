import Verif.Remod.Model
import Verif.Names.Model
import Verif.Parser.Spec
/-! Re-encoding of a whole core module (crates/wasm-encoder/src/reencode.rs,
`utils::parse_core_module`). The hook `intersperse_section_hook` does nothing by default
(lines 912-919) and is left out. `usize` has 64 bits. -/
namespace Verif.Remod
open Verif.Reader Verif.Items Verif.Reenc Verif.Parser Verif.Framing

variable (m : Maps)

/-- The features of `BinaryReader::new` (`WasmFeatures::all()`, wasmparser/src/binary_reader.rs
lines 64-76), with which the code section is read once more (line 850). -/
def allFeatures : Instr.Features := ⟨true, true, true, true⟩

/-- `get_original_section` (lines 687-695): the part of the input at a range of offsets. -/
def originalSection (startOffset : Nat) (data : List UInt8) (range : Nat × Nat) :
    Option (List UInt8) :=
  if startOffset ≤ range.1 ∧ range.1 ≤ range.2 ∧ range.2 - startOffset ≤ data.length then
    some ((data.take (range.2 - startOffset)).drop (range.1 - startOffset))
  else none

/-- `CodeSectionReader::new` (wasmparser/src/readers.rs lines 107-114) as in line 851. -/
def codeReader (section_ : List UInt8) (offset : Nat) : Option SectionLimited :=
  match SectionLimited.new (Reader.new section_ offset) with
  | .ok s => some s
  | .error _ => none

/-- The arm for `CodeSectionStart` (lines 836-854) with `parse_code_section` (lines 1783-1792);
a `FunctionBody` is read with `read_reader` (wasmparser/src/readers/core/code.rs lines 87-92). -/
def codeSection (startOffset : Nat) (data : List UInt8) (range : Nat × Nat) : Option Sect := do
  let section_ ← originalSection startOffset data range
  let s ← codeReader section_ range.1
  let bodies ← itemsOf readReader s
  pure (.code (← bodies.mapM (functionBody m allFeatures)))

/-- The name of the name section. -/
def nameName : List UInt8 := [0x6E, 0x61, 0x6D, 0x65]

/-- `parse_custom_section` (lines 1002-1016) with `as_known`
(wasmparser/src/readers/core/custom.rs line 57) and `custom_section` (lines 1020-1028); the
name section writes itself as a custom section (wasm-encoder/src/core/names.rs lines 195-208). -/
def customSection (name : List UInt8) (reader : Reader) : Option Sect :=
  if name = nameName then do pure (.custom nameName (← Names.nameSection m reader))
  else some (.custom name reader.rest)

/-- The arms for sections with items: the items are read, re-encoded and put into a section
(lines 705-835); those of the component model are refused (lines 861-874). -/
def itemSection (f : Feats) (id : UInt8) (s : SectionLimited) : Option Sect :=
  match collectItems f id s with
  | some (.ok xs) => do (← items m f xs).sect
  | _ => none

/-- The `match` of `parse_core_module` (lines 697-889): the sections that are added to the
module for a payload. -/
def payload (f : Feats) (startOffset : Nat) (data : List UInt8) : Payload → Option (List Sect)
  | .version _ .module _ => some []
  | .version _ .component _ => none
  | .limited id count reader => do pure [← itemSection m f id ⟨reader, count⟩]
  | .custom name reader => do pure [← customSection m name reader]
  | .start func _ => some [.start (m.func func)]
  | .dataCount count _ => some [.dataCount count]
  | .codeStart _ range _ => do pure [← codeSection m startOffset data range]
  | .codeEntry _ => some []
  | .nested .. => none
  | .componentStart .. => none
  | .unknown id _ range => do pure [.raw id (← originalSection startOffset data range)]
  | .endOf _ => some []

/-- `parse_core_module` (lines 665-893), given the payloads of the parser: the sections added to
the module. -/
def coreModule (f : Feats) (startOffset : Nat) (data : List UInt8) (tr : List Event) :
    Option (List Sect) := do
  pure (← tr.mapM fun e => payload m f startOffset data e.payload).flatten

/-- `parse_core_module` on an empty `Module`, then `Module::finish`: the parser finds no error
(`section?`, line 697), all payloads are re-encoded, and no section is too large to be written
(wasm-encoder/src/core.rs lines 152-172). -/
def Reencodes (f : Feats) (startOffset : Nat) (data bytes : List UInt8) : Prop :=
  ∃ tr ss, DriveAll (Parser.new startOffset) data tr none ∧
    coreModule m f startOffset data tr = some ss ∧ encodeModule ss = some bytes

end Verif.Remod
