/-! The lookup table for `dlopen` and `dlsym` that wit-component builds
(crates/wit-component/src/linking.rs).

Numbers are unbounded; they are cut to 32 bits when they are written. The order of names is a
parameter. So is the content `init` of the fields for variables, which is 0 in the code (line 143), so that
the definitions also describe the table after these have been initialised. -/
namespace Verif.DlTable

abbrev Name := List UInt8

/-- The kinds of `enum Type` (linking/metadata.rs lines 132-136). -/
inductive Kind where
  | function
  | global
  | tag
  deriving DecidableEq, Repr

/-- What is used of `struct Export` (linking/metadata.rs). -/
structure Export where
  name : Name
  kind : Kind
  deriving DecidableEq, Repr

/-- What is used of `struct Metadata` (linking/metadata.rs). -/
structure Lib where
  name : Name
  exports : List Export
  dlOpenable : Bool
  deriving DecidableEq, Repr

/-- `enum Address` (linking.rs lines 61-64). -/
inductive Address where
  | function (a : Nat)
  | global (name : Name)
  deriving DecidableEq, Repr

/-- An element of `symbols` (linking.rs line 124); the name is that of the export. -/
structure Sym where
  export_ : Export
  nameAddress : Nat
  address : Address
  deriving DecidableEq, Repr

/-- An element of `libraries` (linking.rs lines 148-153); the name and the count are those of the
library. -/
structure Rec where
  lib : Lib
  nameAddress : Nat
  symbols : Nat
  deriving DecidableEq, Repr

/-- `write_u32` (linking.rs lines 282-284): what is added. -/
def le32 (v : Nat) : List UInt8 :=
  [UInt8.ofNat v, UInt8.ofNat (v / 256), UInt8.ofNat (v / 65536), UInt8.ofNat (v / 16777216)]

/-- `write_bytes_padded` (linking.rs lines 286-293): what is added. -/
def padded (bytes : Name) : List UInt8 :=
  bytes ++ List.replicate ((bytes.length + 3) / 4 * 4 - bytes.length) 0

variable (tableBase memoryBase : Nat)

/-- The first loop over the exports of a library (linking.rs lines 109-126). -/
def addNames : List Export → List UInt8 → Nat → List Sym × List UInt8 × Nat
  | [], b, n => ([], b, n)
  | e :: es, b, n =>
    let nameAddress := memoryBase + b.length
    let b := b ++ padded e.name
    match e.kind with
    | .function =>
      let (r, b, n') := addNames es b (n + 1)
      (⟨e, nameAddress, .function (tableBase + n)⟩ :: r, b, n')
    | .global =>
      let (r, b, n') := addNames es b n
      (⟨e, nameAddress, .global e.name⟩ :: r, b, n')
    | .tag => addNames es b n

variable (init : Name → Name → Nat)

/-- The second loop (linking.rs lines 131-146); `lib` is the name of the library. -/
def writeSyms (lib : Name) : List Sym → List UInt8 → List (Name × Name × Nat) →
    List UInt8 × List (Name × Name × Nat)
  | [], b, g => (b, g)
  | s :: ss, b, g =>
    let b := b ++ le32 s.export_.name.length ++ le32 s.nameAddress
    match s.address with
    | .function a => writeSyms lib ss (b ++ le32 a) g
    | .global name => writeSyms lib ss (b ++ le32 (init lib name))
        (g ++ [(lib, name, memoryBase + b.length)])

/-- The variables of `DlOpenables::new` (linking.rs lines 99-101). -/
structure St where
  buffer : List UInt8 := []
  globals : List (Name × Name × Nat) := []
  functions : Nat := 0

variable (le : Name → Name → Bool)

/-- The closure for one library (linking.rs lines 105-154). -/
def addLib (lib : Lib) (st : St) : Rec × St :=
  let nameAddress := memoryBase + st.buffer.length
  let (symbols, b, n) :=
    addNames tableBase memoryBase lib.exports (st.buffer ++ padded lib.name) st.functions
  let symbols := symbols.mergeSort fun x y => le x.export_.name y.export_.name
  let (b', g) := writeSyms memoryBase init lib.name symbols b st.globals
  (⟨lib, nameAddress, memoryBase + b.length⟩, ⟨b', g, n⟩)

/-- `map` and `collect` over the libraries (linking.rs lines 102-155). -/
def addLibs : List Lib → St → List Rec × St
  | [], st => ([], st)
  | lib :: libs, st =>
    let (r, st) := addLib tableBase memoryBase init le lib st
    let (rs, st) := addLibs libs st
    (r :: rs, st)

/-- The last loop (linking.rs lines 160-165). -/
def writeLibs : List Rec → List UInt8 → List UInt8
  | [], b => b
  | r :: rs, b => writeLibs rs (b ++ le32 r.lib.name.length ++ le32 r.nameAddress ++
      le32 r.lib.exports.length ++ le32 r.symbols)

/-- `struct DlOpenables` (linking.rs lines 70-93) without the bases. -/
structure Table where
  buffer : List UInt8
  globals : List (Name × Name × Nat)
  functions : Nat
  librariesAddress : Nat
  deriving DecidableEq, Repr

/-- `DlOpenables::new` (linking.rs lines 98-179), with `init`. -/
def newWith (libs : List Lib) : Table :=
  let (rs, st) := addLibs tableBase memoryBase init le (libs.filter (·.dlOpenable)) {}
  let rs := rs.mergeSort fun x y => le x.lib.name y.lib.name
  let b := writeLibs rs st.buffer
  { buffer := b ++ le32 rs.length ++ le32 (memoryBase + st.buffer.length)
    globals := st.globals
    functions := st.functions
    librariesAddress := memoryBase + b.length }

/-- `DlOpenables::new` (linking.rs lines 98-179). -/
def new (libs : List Lib) : Table := newWith tableBase memoryBase (fun _ _ => 0) le libs

end Verif.DlTable
