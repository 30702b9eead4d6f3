import Verif.LinkLayout.Model
/-! What linked libraries rely on. A region is a start and a size. -/
namespace Verif.LinkLayout.Spec

/-- The regions do not overlap and are below `limit`. -/
def Separate (regions : List (Nat × Nat)) (limit : Nat) : Prop :=
  regions.Pairwise (fun a b => ∀ x, ¬ ((a.1 ≤ x ∧ x < a.1 + a.2) ∧ (b.1 ≤ x ∧ x < b.1 + b.2))) ∧
  ∀ r ∈ regions, r.1 + r.2 ≤ limit

/-- How many of the libraries have thread-local storage. -/
def tlsCount (libs : List Lib) : Nat := libs.countP (·.hasLibraryTlsInfo)

/-- The arrays and the structure for thread-local storage, as far as a library asks for them. -/
def tlsRegions (libs : List Lib) (tls : Tls) : List (Nat × Nat) :=
  if libs.any (·.needsProgramTlsInfo) then
    [(tls.mainThreadTlsBase, 4 * tlsCount libs), (tls.libraryInfo, 4 * tlsCount libs),
      (tls.programInfo, 12)]
  else if libs.any (fun l => l.needsGetTlsBase || l.needsSetTlsBase) then
    [(tls.mainThreadTlsBase, 4 * tlsCount libs)]
  else []

/-- All that is in memory: the stack, the lookup table of `dlopen`, thread-local storage, the
libraries, and the heap. -/
def memoryRegions (stackSize dlLength : Nat) (libs : List Lib) (L : Layout) : List (Nat × Nat) :=
  (0, stackSize) :: (L.dlMemory, dlLength) :: (tlsRegions libs L.tls ++
    (List.zipWith (fun l b => (b.1, l.memorySize)) libs L.libs ++
      [(L.heapBase, L.heapEnd - L.heapBase)]))

/-- All that is in the table: the null pointer, the functions for `dlsym`, the libraries, and the
exports of `env`. -/
def tableRegions (dlFunctions : Nat) (libs : List Lib) (envExports : Nat) (L : Layout) :
    List (Nat × Nat) :=
  (0, 1) :: (L.dlTable, dlFunctions) ::
    (List.zipWith (fun l b => (b.2, l.tableSize)) libs L.libs ++
      [(L.indirectionTableBase, envExports)])

/-- Every library has its own slot: the number of libraries with a slot before it. -/
def SlotsRight (libs : List Lib) (slots : List (Option Nat)) : Prop :=
  ∀ i l, libs[i]? = some l →
    slots[i]? = some (if l.hasLibraryTlsInfo then some (tlsCount (libs.take i)) else none)

structure TlsRight (libs : List Lib) (tls : Tls) : Prop where
  aligned : tls.mainThreadTlsBase % 4 = 0 ∧ tls.libraryInfo % 4 = 0 ∧ tls.programInfo % 4 = 0
  slots : libs.any (fun l => l.needsGetTlsBase || l.needsSetTlsBase || l.needsProgramTlsInfo) = true →
    SlotsRight libs tls.slots
  /-- `struct { size_t num_libraries; void **library_info; void **main_thread_tls_base; }` -/
  info : libs.any (·.needsProgramTlsInfo) = true →
    tls.buffer = [tlsCount libs, tls.libraryInfo, tls.mainThreadTlsBase]
  /-- `library_info` is also used to tell whether there is one (linking.rs line 990). -/
  present : tls.libraryInfo ≠ 0 ↔ libs.any (·.needsProgramTlsInfo) = true

structure LaidOut (stackSize dlLength dlFunctions : Nat) (libs : List Lib) (envExports : Nat)
    (L : Layout) : Prop where
  memory : Separate (memoryRegions stackSize dlLength libs L) (L.memorySize * 65536)
  table : Separate (tableRegions dlFunctions libs envExports L) L.tableSize
  all : L.libs.length = libs.length
  aligned : ∀ (i : Nat) (l : Lib) (b : Nat × Nat), libs[i]? = some l → L.libs[i]? = some b →
    b.1 % 2 ^ l.memoryAlignment = 0 ∧ b.2 % 2 ^ l.tableAlignment = 0
  heap : L.heapBase % 16 = 0 ∧ L.heapEnd = L.memorySize * 65536
  tls : TlsRight libs L.tls
  /-- The functions exported by `env` call one place each, in the order of the elements. -/
  calls : L.calls = (List.range envExports).map (L.indirectionTableBase + ·)

end Verif.LinkLayout.Spec
