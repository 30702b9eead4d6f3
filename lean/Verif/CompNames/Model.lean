import Verif.Names.Model
import Verif.Custom.Model
/-! The `component-name` custom section: wasmparser's reader
(crates/wasmparser/src/readers/component/names.rs), wasm-encoder's builder
(crates/wasm-encoder/src/component/names.rs) and the re-encoder
(crates/wasm-encoder/src/reencode/component.rs).

Strings are their bytes. On the side of the encoder `none` is a panic, in the re-encoder an error
or a panic. -/
namespace Verif.CompNames
open Verif.Reader Verif.Items

/-! ### wasmparser -/

/-- The variants of `enum ComponentName` (names.rs lines 16-28) that hold a `NameMap`. -/
inductive Kind where
  | coreFuncs | coreGlobals | coreMemories | coreTables | coreTags | coreModules | coreInstances
  | coreTypes | types | instances | components | funcs | values
  deriving DecidableEq, Repr

/-- `enum ComponentName` (names.rs lines 11-41). -/
inductive CName where
  | component (name : List UInt8) (range : Nat × Nat)
  | names (k : Kind) (map : SectionLimited)
  | unknown (ty : UInt8) (data : List UInt8) (range : Nat × Nat)
  deriving DecidableEq, Repr

/-- The inner `match` (names.rs lines 62-78). -/
def coreKind (b : UInt8) : Option Kind :=
  if b = 0x00 then some .coreFuncs
  else if b = 0x01 then some .coreTables
  else if b = 0x02 then some .coreMemories
  else if b = 0x03 then some .coreGlobals
  else if b = 0x04 then some .coreTags
  else if b = 0x10 then some .coreTypes
  else if b = 0x11 then some .coreModules
  else if b = 0x12 then some .coreInstances
  else none

/-- The other arms of the outer `match` (names.rs lines 79-90). -/
def compKind (b : UInt8) : Option Kind :=
  if b = 0x01 then some .funcs
  else if b = 0x02 then some .values
  else if b = 0x03 then some .types
  else if b = 0x04 then some .components
  else if b = 0x05 then some .instances
  else none

/-- The two `match`es (names.rs lines 61-91); `none` where `Unknown` is returned. -/
def readKind : R (Option Kind) := do
  let b ← readU8
  if b = 0x00 then do
    let c ← readU8
    pure (coreKind c)
  else pure (compKind b)

/-- `BinaryReader::shrink` (crates/wasmparser/src/binary_reader.rs lines 148-158). -/
def shrink (r : Reader) : Reader := Reader.new r.rest r.originalPosition

/-- `BinaryReader::remaining_range` (crates/wasmparser/src/binary_reader.rs lines 193-195). -/
def remainingRange (r : Reader) : Nat × Nat :=
  (r.originalPosition, r.originalOffset + r.maxPosition)

/-- `ComponentName::Component` (names.rs lines 46-59). -/
def readComponent (r : Reader) : Except Err CName :=
  match readUnlimitedString r with
  | .error e => .error e
  | .ok (name, r') =>
    if !r'.eof then .error (.msg "trailing data at the end of a name" r'.originalPosition)
    else .ok (.component name (r.originalPosition, r'.originalPosition))

/-- `ComponentName::from_reader` (names.rs lines 44-99). -/
def fromReader (id : UInt8) (r : Reader) : Except Err CName :=
  if id = 0 then readComponent r
  else if id = 1 then
    match readKind r with
    | .error e => .error e
    | .ok (some k, r') => (SectionLimited.new (shrink r')).map (.names k)
    | .ok (none, r') => .ok (.unknown 1 r'.rest (remainingRange r'))
  else .ok (.unknown id r.rest (remainingRange r))

/-- All the items of a `ComponentNameSectionReader` (names.rs line 6). -/
def subsections (r : Reader) : Except Err (List CName) := Custom.subs fromReader r

/-! ### wasm-encoder -/

/-- `ComponentNameSection::component` (component/names.rs lines 30-34): the bytes that it appends. -/
def component (name : List UInt8) : Option (List UInt8) :=
  if name.length < 2 ^ 32 then do
    pure ([0x00] ++ (← Framing.encodeUsize (Leb.encodingSize (BitVec.ofNat 32 name.length) +
      name.length)) ++ (← Framing.encodeSlice name))
  else none

/-- `component_decls` and `subsection_header` (component/names.rs lines 118-122, 131-134). -/
def componentDecls (kind : UInt8) (names : Enc.Builder) : Option (List UInt8) := do
  pure ([0x01] ++ (← Framing.encodeUsize (1 + Names.mapSize names)) ++ [kind] ++
    Names.encodeMap names)

/-- `core_decls` and `subsection_header` (component/names.rs lines 124-134). -/
def coreDecls (kind : UInt8) (names : Enc.Builder) : Option (List UInt8) := do
  pure ([0x01] ++ (← Framing.encodeUsize (2 + Names.mapSize names)) ++ [0x00] ++ [kind] ++
    Names.encodeMap names)

/-- `core_funcs` to `instances` (component/names.rs lines 36-110), with the constants of component.rs
lines 29-38 and `enum ExportKind` (core/exports.rs). -/
def decls : Kind → Enc.Builder → Option (List UInt8)
  | .coreFuncs => coreDecls 0x00
  | .coreTables => coreDecls 0x01
  | .coreMemories => coreDecls 0x02
  | .coreGlobals => coreDecls 0x03
  | .coreTags => coreDecls 0x04
  | .coreTypes => coreDecls 0x10
  | .coreModules => coreDecls 0x11
  | .coreInstances => coreDecls 0x12
  | .funcs => componentDecls 0x01
  | .values => componentDecls 0x02
  | .types => componentDecls 0x03
  | .components => componentDecls 0x04
  | .instances => componentDecls 0x05

/-- `ComponentNameSection::raw` (component/names.rs lines 113-116). -/
def raw (id : UInt8) (data : List UInt8) : Option (List UInt8) := do
  pure ([id] ++ (← Framing.encodeSlice data))

/-! ### The re-encoder -/

/-- The functions of `trait Reencode` and `trait ReencodeComponent` (reencode/component.rs lines
7-33) that map indices; pure and total. -/
structure Maps where
  function : BitVec 32 → BitVec 32
  global : BitVec 32 → BitVec 32
  memory : BitVec 32 → BitVec 32
  table : BitVec 32 → BitVec 32
  tag : BitVec 32 → BitVec 32
  type : BitVec 32 → BitVec 32
  module : BitVec 32 → BitVec 32
  instance_ : BitVec 32 → BitVec 32
  componentType : BitVec 32 → BitVec 32
  componentInstance : BitVec 32 → BitVec 32
  component : BitVec 32 → BitVec 32
  componentFunc : BitVec 32 → BitVec 32
  componentValue : BitVec 32 → BitVec 32

/-- Which of them is used (reencode/component.rs lines 1468-1507). -/
def mapOf (m : Maps) : Kind → BitVec 32 → BitVec 32
  | .coreFuncs => m.function
  | .coreGlobals => m.global
  | .coreMemories => m.memory
  | .coreTables => m.table
  | .coreTags => m.tag
  | .coreModules => m.module
  | .coreInstances => m.instance_
  | .coreTypes => m.type
  | .types => m.componentType
  | .instances => m.componentInstance
  | .components => m.component
  | .funcs => m.componentFunc
  | .values => m.componentValue

/-- `parse_custom_component_name_subsection` (reencode/component.rs lines 1458-1513). -/
def reencodeSub (m : Maps) : CName → Option (List UInt8)
  | .component name _ => component name
  | .names k map => do decls k (← Names.nameMap (mapOf m k) map)
  | .unknown ty data _ => raw ty data

/-- `custom_component_name_section` (reencode/component.rs lines 1447-1456): the data of the
section. -/
def reencode (m : Maps) (r : Reader) : Option (List UInt8) :=
  match subsections r with
  | .error _ => none
  | .ok xs => Enc.encodeAll (reencodeSub m) xs

end Verif.CompNames
