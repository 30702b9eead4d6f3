import Verif.DlSym.Model
import Verif.DlTable.Spec
/-! What `dlopen` and `dlsym` should return, in terms of the libraries that were linked. -/
namespace Verif.DlSym.Spec
open DlTable DlTable.Spec

variable (tableBase memoryBase : Nat)
  /- the addresses of variables -/
  (init : Name → Name → Nat)
  (libs : List Lib) (t : Table)
  /- the memory from `memoryBase` -/
  (m : List UInt8)

/-- The memory when `dlopen` is called: the table, where the init module has put the addresses of the
variables (linking.rs lines 880-897). -/
structure Initialised : Prop where
  length : m.length = t.buffer.length
  fields : ∀ x ∈ t.globals, Word m memoryBase x.2.2 (init x.1 x.2.1)
  others : ∀ i, (∀ x ∈ t.globals, ¬ (x.2.2 ≤ memoryBase + i ∧ memoryBase + i < x.2.2 + 4)) →
    m[i]? = t.buffer[i]?

/-- `v` is the address of the export. -/
def IsAddress (l : Lib) (e : Export) (v : Nat) : Prop :=
  match e.kind with
  | .function => ∃ k, v = tableBase + k ∧ (functions libs)[k]? = some (l.name, e.name)
  | .global => v = init l.name e.name
  | .tag => False

/-- What `dlsym` should return for the symbol `s` of `l`. -/
def Resolved (l : Lib) (s : Name) : Option (Except Error Nat) → Prop
  | some (.ok v) => ∃ e ∈ l.exports, e.name = s ∧ IsAddress tableBase init libs l e v
  | some (.error .symbolNotFound) => ∀ e ∈ l.exports, e.kind ≠ .tag → e.name ≠ s
  | _ => False

/-- What `dlopen` should return for `name`, and `dlsym` for all symbols with what it returned. -/
def Opened (name : Name) : Option (Except Error Nat) → Prop
  | some (.ok p) => p ≠ 0 ∧ ∃ l ∈ libs, l.dlOpenable = true ∧ l.name = name ∧
      ∀ s, Resolved tableBase init libs l s (dlsym m memoryBase t.librariesAddress p s)
  | some (.error .libraryNotFound) => ∀ l ∈ libs, l.dlOpenable = true → l.name ≠ name
  | _ => False

/-- The flags that are supported: `RTLD_LAZY`, `RTLD_NOW`, `RTLD_GLOBAL`. -/
def Supported (flags : BitVec 32) : Prop :=
  ∀ i : Nat, flags.getLsbD i = true → i = 0 ∨ i = 1 ∨ i = 8

/-- The property: the symbols of the linked libraries are found, and nothing else. -/
def Right : Prop := ∀ tableBase memoryBase init libs, 0 < memoryBase →
  FitsIn tableBase memoryBase (new tableBase memoryBase lexLe libs) →
  (∀ l n, init l n < 2 ^ 32) →
  ∀ m, Initialised memoryBase init (new tableBase memoryBase lexLe libs) m →
  ∀ name flags, Supported flags →
    Opened tableBase memoryBase init libs (new tableBase memoryBase lexLe libs) m name
      (dlopen m memoryBase (new tableBase memoryBase lexLe libs).librariesAddress name flags)

end Verif.DlSym.Spec
