/-! Where wit-component puts linked libraries in memory and in the function table
(crates/wit-component/src/linking.rs, `TlsLayout::new` and `make_env_module`).

Numbers are `u32` in the code. `checks` tells whether the code is compiled with overflow checks, which
is the default for debug but not for release builds. Left out are names, types and code; of these
only the addresses appear here. -/
namespace Verif.LinkLayout

/-- What is used of `struct Metadata` (linking/metadata.rs lines 189-282) and its `MemInfo`
(wasmparser/src/readers/core/dylink0.rs lines 19-35). -/
structure Lib where
  memorySize : Nat := 0
  memoryAlignment : Nat := 0
  tableSize : Nat := 0
  tableAlignment : Nat := 0
  needsGetTlsBase : Bool := false
  needsSetTlsBase : Bool := false
  needsProgramTlsInfo : Bool := false
  hasLibraryTlsInfo : Bool := false
  deriving DecidableEq, Repr

/-- The panics of the code. -/
inductive Panic where
  | overflow
  | tryFrom
  deriving DecidableEq, Repr

/-- The result of an operation on `u32` whose exact result is `v`. -/
def u32 (checks : Bool) (v : Nat) : Except Panic Nat :=
  if v < 4294967296 then .ok v else if checks then .error .overflow else .ok (v % 4294967296)

/-- `1 << k` (linking.rs lines 529 and 530). -/
def shl1 (checks : Bool) (k : Nat) : Except Panic Nat :=
  if k < 32 then .ok (2 ^ k) else if checks then .error .overflow else .ok (2 ^ (k % 32))

/-- `u32::try_from(..).unwrap()`. -/
def tryFrom (v : Nat) : Except Panic Nat :=
  if v < 4294967296 then .ok v else .error .tryFrom

/-- `align` (linking.rs lines 295-298); `b` is a power of two, for which the mask is this. -/
def align (checks : Bool) (a b : Nat) : Except Panic Nat := do
  let s ← u32 checks (a + (b - 1))
  return s / b * b

/-- `struct TlsLayout` (linking.rs lines 197-215); `buffer` are the words written. -/
structure Tls where
  mainThreadTlsBase : Nat := 0
  libraryInfo : Nat := 0
  programInfo : Nat := 0
  slots : List (Option Nat) := []
  buffer : List Nat := []
  deriving DecidableEq, Repr

/-- Indices of the libraries with thread-local storage (linking.rs lines 235-240). -/
def withTls : List Lib → Nat → List Nat
  | [], _ => []
  | l :: ls, i => if l.hasLibraryTlsInfo then i :: withTls ls (i + 1) else withTls ls (i + 1)

/-- The loop that fills in the slots (linking.rs lines 242-245). -/
def fillSlots : List Nat → Nat → List (Option Nat) → List (Option Nat)
  | [], _, slots => slots
  | index :: is, slot, slots => fillSlots is (slot + 1) (slots.set index (some slot))

/-- `needs_tls_base` (linking.rs lines 226-228). -/
def needsTlsBase (libs : List Lib) : Bool :=
  libs.any fun l => l.needsGetTlsBase || l.needsSetTlsBase

/-- `needs_program_info` (linking.rs line 229). -/
def needsProgramInfo (libs : List Lib) : Bool := libs.any (·.needsProgramTlsInfo)

/-- `TlsLayout::new` (linking.rs lines 225-274), with the new `memory_offset`. -/
def tlsNew (checks : Bool) (libs : List Lib) (offset : Nat) : Except Panic (Tls × Nat) := do
  if !needsTlsBase libs && !needsProgramInfo libs then
    return ({}, offset)
  let libraries := withTls libs 0
  let slots := fillSlots libraries 0 (List.replicate libs.length none)
  let count ← tryFrom libraries.length
  let base ← align checks offset 4
  let size ← u32 checks (count * 4)
  let offset ← u32 checks (base + size)
  if needsProgramInfo libs then
    let info ← u32 checks (offset + size)
    let offset' ← u32 checks (info + 12)
    return (⟨base, offset, info, slots, [count, offset, base]⟩, offset')
  else
    return (⟨base, 0, 0, slots, []⟩, offset)

/-- The loop over the libraries (linking.rs lines 528-551): the values of `memory_base` and
`table_base`, and the offsets after. -/
def placeLibs (checks : Bool) : List Lib → Nat → Nat → Except Panic (List (Nat × Nat) × Nat × Nat)
  | [], m, t => .ok ([], m, t)
  | l :: ls, m, t => do
    let am ← shl1 checks l.memoryAlignment
    let m ← align checks m am
    let at_ ← shl1 checks l.tableAlignment
    let t ← align checks t at_
    let m' ← u32 checks (m + l.memorySize)
    let t' ← u32 checks (t + l.tableSize)
    let (r, m'', t'') ← placeLibs checks ls m' t'
    return ((m, t) :: r, m'', t'')

/-- The loop over `env_exports` (linking.rs lines 601-623): the place in the table that each of the
functions calls, and the offset after. -/
def calls (checks : Bool) : Nat → Nat → Except Panic (List Nat × Nat)
  | 0, t => .ok ([], t)
  | n + 1, t => do
    let t' ← u32 checks (t + 1)
    let (r, t'') ← calls checks n t'
    return (t :: r, t'')

/-- The addresses in the module. -/
structure Layout where
  /-- `dl_openables.memory_base` and `table_base`. -/
  dlMemory : Nat
  dlTable : Nat
  tls : Tls
  /-- `memory_base` and `table_base` of the libraries. -/
  libs : List (Nat × Nat)
  heapBase : Nat
  heapEnd : Nat
  /-- The size of the memory in pages. -/
  memorySize : Nat
  /-- The place of the first of `env_exports`. -/
  indirectionTableBase : Nat
  calls : List Nat
  /-- The size of the table. -/
  tableSize : Nat
  deriving DecidableEq, Repr

/-- `make_env_module` (linking.rs lines 437-442, 485, 495-498, 528-551, 585-597, 601-623, 762-786).
The lookup table of `dlopen` has `dlLength` bytes and `dlFunctions` functions; there are `envExports`
functions in `env_exports`. -/
def makeEnv (checks : Bool) (stackSize dlLength dlFunctions : Nat) (libs : List Lib)
    (envExports : Nat) : Except Panic Layout := do
  let t ← u32 checks (1 + dlFunctions)
  let len ← tryFrom dlLength
  let m ← u32 checks (stackSize + len)
  let (tls, m) ← tlsNew checks libs m
  let (placed, m, t) ← placeLibs checks libs m t
  let heapBase ← align checks m 16
  let heapEnd ← align checks heapBase 65536
  let (cs, t') ← calls checks envExports t
  return {
    dlMemory := stackSize, dlTable := 1, tls, libs := placed, heapBase, heapEnd,
    memorySize := heapEnd / 65536, indirectionTableBase := t, calls := cs, tableSize := t' }

end Verif.LinkLayout
