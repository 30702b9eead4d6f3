import Verif.Leb.Model
/-!
# Model of assembling modules with wasm-encoder

Sources: `/repo/crates/wasm-encoder/src/lib.rs`, `core.rs`, `raw.rs`, `core/custom.rs`,
`core/start.rs`, `core/data.rs`, `core/code.rs`.

`none` is a panic. `usize` has 64 bits. A sink is the list of bytes appended to it.
-/
namespace Verif.Framing
open Verif.Leb

/-- `impl Encode for usize` (lib.rs lines 130-135): asserts that the number fits a `u32`. -/
def encodeUsize (n : Nat) : Option (List UInt8) :=
  if n ≤ 2 ^ 32 - 1 then some (encodeU32 (BitVec.ofNat 32 n)) else none

/-- `impl Encode for [u8]` and `for str` (lib.rs lines 116-128). -/
def encodeSlice (bytes : List UInt8) : Option (List UInt8) := do
  let len ← encodeUsize bytes.length
  some (len ++ bytes)

/-- `encode_section` (lib.rs lines 198-202). -/
def encodeSection (count : BitVec 32) (bytes : List UInt8) : Option (List UInt8) := do
  let len ← encodeUsize (encodingSize count + bytes.length)
  some (len ++ encodeU32 count ++ bytes)

/-- `struct CodeSection` (core/code.rs lines 41-44). -/
structure CodeSection where
  bytes : List UInt8 := []
  numAdded : BitVec 32 := 0

/-- `CodeSection::raw` (core/code.rs lines 104-108); `CodeSection::function` (lines 74-78)
does the same with the bytes of the function (`Function::encode` is `self.bytes.encode`).
The addition wraps as in a release build. -/
def CodeSection.raw (c : CodeSection) (data : List UInt8) : Option CodeSection := do
  let d ← encodeSlice data
  some { bytes := c.bytes ++ d, numAdded := c.numAdded + 1 }

/-- The sections. `items` stands for every section builder made of `bytes` and `num_added`
and encoded with `encode_section` (types, imports, functions, tables, memories, tags,
globals, exports, elements, data); `code` for a `CodeSection` to which the bodies were
added one after another. -/
inductive Sect where
  | items (id : UInt8) (count : BitVec 32) (bytes : List UInt8)
  | code (bodies : List (List UInt8))
  | start (func : BitVec 32)
  | dataCount (count : BitVec 32)
  | custom (name data : List UInt8)
  | raw (id : UInt8) (data : List UInt8)
  deriving DecidableEq, Repr

/-- `Section::id` of each builder (core.rs lines 67-99; `fn id` of each section). -/
def Sect.id : Sect → UInt8
  | .items id _ _ => id
  | .code _ => 10
  | .start _ => 8
  | .dataCount _ => 12
  | .custom _ _ => 0
  | .raw id _ => id

/-- `Encode::encode` of each section: `encode_section`; code.rs lines 111-115;
start.rs lines 30-34; data.rs lines 165-169; custom.rs lines 15-21; raw.rs lines 15-18. -/
def Sect.encode : Sect → Option (List UInt8)
  | .items _ count bytes => encodeSection count bytes
  | .code bodies => do
    let c ← bodies.foldlM CodeSection.raw {}
    encodeSection c.numAdded c.bytes
  | .start f => do
    let len ← encodeUsize (encodingSize f)
    some (len ++ encodeU32 f)
  | .dataCount c => do
    let len ← encodeUsize (encodingSize c)
    some (len ++ encodeU32 c)
  | .custom name data =>
    if name.length ≤ 2 ^ 32 - 1 then do
      let len ← encodeUsize (encodingSize (BitVec.ofNat 32 name.length) + name.length +
        data.length)
      let n ← encodeSlice name
      some (len ++ n ++ data)
    else none
  | .raw _ data => encodeSlice data

/-- `Module::HEADER` (core.rs lines 126-131). -/
def moduleHeader : List UInt8 := [0x00, 0x61, 0x73, 0x6d, 0x01, 0x00, 0x00, 0x00]

/-- `Module::section` (core.rs lines 149-153). -/
def addSection (bytes : List UInt8) (s : Sect) : Option (List UInt8) := do
  let enc ← s.encode
  some (bytes ++ [s.id] ++ enc)

/-- `Module::new`, `section` for each section, `finish` (core.rs lines 134-170). -/
def encodeModule (ss : List Sect) : Option (List UInt8) := ss.foldlM addSection moduleHeader

end Verif.Framing
