import Verif.Items.EncModel
import Verif.Reenc.Model
/-! The `name` custom section: wasmparser's readers (crates/wasmparser/src/readers/core/names.rs
and readers.rs), wasm-encoder's builder (crates/wasm-encoder/src/core/names.rs) and the
re-encoder (crates/wasm-encoder/src/reencode.rs).

Strings are their bytes. On the side of the encoder `none` is a panic, in the re-encoder an error
or a panic. -/
namespace Verif.Names
open Verif.Reader Verif.Items

/-! ### wasmparser -/

/-- `struct Naming` (names.rs lines 24-29). -/
structure Naming where
  index : BitVec 32
  name : List UInt8
  deriving DecidableEq, Repr

/-- `Naming::from_reader` (names.rs lines 32-39). -/
def readNaming : R Naming := do
  let index ← readVarU32
  let name ← readUnlimitedString
  pure ⟨index, name⟩

/-- `struct IndirectNaming` (names.rs lines 47-52). -/
structure IndirectNaming where
  index : BitVec 32
  names : SectionLimited
  deriving DecidableEq, Repr

/-- The loop body of names.rs lines 64-65. -/
def skipNaming : R Unit := do
  let _ ← readVarU32
  skipString

/-- `IndirectNaming::from_reader` (names.rs lines 55-74). -/
def readIndirectNaming : R IndirectNaming := do
  let index ← readVarU32
  let names ← skip (skipItems skipNaming)
  let names ← limited names
  pure ⟨index, names⟩

/-- The variants of `enum Name` (names.rs lines 79-119) that hold a `NameMap`. -/
inductive Direct where
  | function | type | table | memory | global | element | data | tag
  deriving DecidableEq, Repr

/-- Those that hold an `IndirectNameMap`. -/
inductive Indirect where
  | local | label | field
  deriving DecidableEq, Repr

/-- `enum Name` (names.rs lines 79-119). -/
inductive Name where
  | module (name : List UInt8) (range : Nat × Nat)
  | direct (k : Direct) (map : SectionLimited)
  | indirect (k : Indirect) (map : SectionLimited)
  | unknown (ty : UInt8) (data : List UInt8) (range : Nat × Nat)
  deriving DecidableEq, Repr

/-- Which variant an id stands for (names.rs lines 141-151). -/
def directOf (id : UInt8) : Option Direct :=
  if id = 1 then some .function
  else if id = 4 then some .type
  else if id = 5 then some .table
  else if id = 6 then some .memory
  else if id = 7 then some .global
  else if id = 8 then some .element
  else if id = 9 then some .data
  else if id = 11 then some .tag
  else none

/-- The same for the others (names.rs lines 142-143, 150). -/
def indirectOf (id : UInt8) : Option Indirect :=
  if id = 2 then some .local
  else if id = 3 then some .label
  else if id = 10 then some .field
  else none

/-- `Name::Module` (names.rs lines 127-140). -/
def readModuleName (r : Reader) : Except Err Name :=
  match readString r with
  | .error e => .error e
  | .ok (name, r') =>
    if !r'.eof then .error (.msg "trailing data at the end of a name" r'.originalPosition)
    else .ok (.module name (r.originalPosition, r'.originalPosition))

/-- `Name::from_reader` (names.rs lines 125-158); `remaining_range` as in binary_reader.rs. -/
def nameFromReader (id : UInt8) (r : Reader) : Except Err Name :=
  if id = 0 then readModuleName r
  else match directOf id, indirectOf id with
    | some k, _ => (SectionLimited.new r).map (.direct k)
    | none, some k => (SectionLimited.new r).map (.indirect k)
    | none, none => .ok (.unknown id r.rest (r.originalPosition, r.originalOffset + r.maxPosition))

/-- `Subsections::read` (readers.rs lines 290-297). -/
def readSubsection : R Name := do
  let id ← readU7
  let reader ← readReader
  fun r => (nameFromReader id reader).map (·, r)

/-- `Subsections::next` (readers.rs lines 323-329) until it returns `None` or an error; a read
that succeeds consumes a byte, so that the number of bytes bounds the number of steps. -/
def subsectionsFrom : Nat → Reader → Except Err (List Name)
  | 0, _ => .ok []
  | n + 1, r =>
    if r.eof then .ok []
    else match readSubsection r with
      | .error e => .error e
      | .ok (x, r') =>
        match subsectionsFrom n r' with
        | .error e => .error e
        | .ok xs => .ok (x :: xs)

/-- `NameSectionReader::new` and all its items. -/
def subsections (r : Reader) : Except Err (List Name) := subsectionsFrom r.bytesRemaining r

/-! ### wasm-encoder -/

/-- `NameMap::append` (core/names.rs lines 242-246) to `struct NameMap` (lines 222-225), whose
addition to `count` wraps as in a release build. -/
def append (b : Enc.Builder) (idx : BitVec 32) (name : List UInt8) : Option Enc.Builder := do
  pure (b.add (Leb.encodeU32 idx ++ (← Framing.encodeSlice name)))

/-- `impl Encode for NameMap` and `for IndirectNameMap` (core/names.rs lines 258-263, 300-305). -/
def encodeMap (b : Enc.Builder) : List UInt8 := Leb.encodeU32 b.numAdded ++ b.bytes

/-- `IndirectNameMap::append` (core/names.rs lines 289-293). -/
def appendIndirect (b : Enc.Builder) (idx : BitVec 32) (names : Enc.Builder) : Enc.Builder :=
  b.add (Leb.encodeU32 idx ++ encodeMap names)

/-- `size` (core/names.rs lines 248-250, 295-297). -/
def mapSize (b : Enc.Builder) : Nat := Leb.encodingSize b.numAdded + b.bytes.length

/-- The ids of `enum Subsection` (core/names.rs lines 32-54) that `functions` to `tags` (lines
79-182) use. -/
def directId : Direct → UInt8
  | .function => 1 | .type => 4 | .table => 5 | .memory => 6 | .global => 7 | .element => 8
  | .data => 9 | .tag => 11

/-- The same for `locals`, `labels` and `fields`. -/
def indirectId : Indirect → UInt8
  | .local => 2 | .label => 3 | .field => 10

/-- `subsection_header` and the encoding of a map (core/names.rs lines 190-193, for instance lines
79-82): the bytes appended to a `NameSection`. -/
def mapSubsection (id : UInt8) (b : Enc.Builder) : Option (List UInt8) := do
  pure ([id] ++ (← Framing.encodeUsize (mapSize b)) ++ encodeMap b)

/-- `NameSection::module` (core/names.rs lines 67-71). -/
def moduleSubsection (name : List UInt8) : Option (List UInt8) :=
  if name.length < 2 ^ 32 then do
    pure ([0x00] ++ (← Framing.encodeUsize (Leb.encodingSize (BitVec.ofNat 32 name.length) +
      name.length)) ++ (← Framing.encodeSlice name))
  else none

/-- `NameSection::raw` (core/names.rs lines 185-188). -/
def rawSubsection (id : UInt8) (data : List UInt8) : Option (List UInt8) := do
  pure ([id] ++ (← Framing.encodeSlice data))

/-! ### The re-encoder -/

/-- The loop of `name_map` (reencode.rs lines 1902-1912). -/
def nameMapFrom (f : BitVec 32 → BitVec 32) (b : Enc.Builder) : List Naming → Option Enc.Builder
  | [] => some b
  | x :: xs => do nameMapFrom f (← append b (f x.index) x.name) xs

/-- `name_map` (reencode.rs lines 1902-1912). -/
def nameMap (f : BitVec 32 → BitVec 32) (map : SectionLimited) : Option Enc.Builder :=
  match map.collect readNaming with
  | .error _ => none
  | .ok xs => nameMapFrom f {} xs

/-- The loop of `indirect_name_map` (reencode.rs lines 1914-1927). -/
def indirectNameMapFrom (f : BitVec 32 → BitVec 32) (b : Enc.Builder) :
    List IndirectNaming → Option Enc.Builder
  | [] => some b
  | x :: xs => do indirectNameMapFrom f (appendIndirect b (f x.index) (← nameMap id x.names)) xs

/-- `indirect_name_map` (reencode.rs lines 1914-1927). -/
def indirectNameMap (f : BitVec 32 → BitVec 32) (map : SectionLimited) : Option Enc.Builder :=
  match map.collect readIndirectNaming with
  | .error _ => none
  | .ok xs => indirectNameMapFrom f {} xs

variable (m : Reenc.Maps)

/-- Which function of the re-encoder maps the indices of a map of names (reencode.rs lines
1862-1895). -/
def directMap : Direct → BitVec 32 → BitVec 32
  | .function => m.func
  | .type => m.type
  | .table => m.table
  | .memory => m.memory
  | .global => m.global
  | .element => m.elem
  | .data => m.data
  | .tag => m.tag

/-- The same for the outer indices of a nested map. -/
def indirectMap : Indirect → BitVec 32 → BitVec 32
  | .local => m.func
  | .label => m.func
  | .field => m.type

/-- `parse_custom_name_subsection` (reencode.rs lines 1853-1900): the bytes appended. -/
def nameSubsection : Name → Option (List UInt8)
  | .module name _ => moduleSubsection name
  | .direct k map => do mapSubsection (directId k) (← nameMap (directMap m k) map)
  | .indirect k map => do mapSubsection (indirectId k) (← indirectNameMap (indirectMap m k) map)
  | .unknown ty data _ => rawSubsection ty data

/-- `custom_name_section` (reencode.rs lines 1842-1851): the data of the new section. -/
def nameSection (r : Reader) : Option (List UInt8) :=
  match subsections r with
  | .error _ => none
  | .ok xs => Enc.encodeAll (nameSubsection m) xs

end Verif.Names
