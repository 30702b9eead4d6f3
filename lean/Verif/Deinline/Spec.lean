import Verif.Deinline.Model
import Verif.Resolve.Known

/-!
# What inline imports, exports, data and elements are short for
-/

namespace Verif.Deinline

open Verif.Expand Verif.Resolve

/-- The identifier of an item. -/
def Src.id : Src → Option Id
  | .other _ _ => none
  | .func id _ _ _ => id
  | .memory id _ _ => id
  | .table id _ _ => id
  | .global id _ _ _ => id
  | .tag id _ _ _ => id

/-- The names an item is exported as. -/
def Src.exports : Src → List String
  | .other _ _ => []
  | .func _ es _ _ => es
  | .memory _ es _ => es
  | .table _ es _ => es
  | .global _ es _ _ => es
  | .tag _ es _ _ => es

/-- The index space of an item. -/
def Src.space : Src → Option Space
  | .other _ _ => none
  | .func _ _ _ _ => some .func
  | .memory _ _ _ => some .memory
  | .table _ _ _ => some .table
  | .global _ _ _ _ => some .global
  | .tag _ _ _ _ => some .tag

/-- The segment for inline contents of the memory or table called `x`. -/
def Src.segment : Src → Id → List Out
  | .memory _ _ (.inline is64 _ _), x => [{ field := .data none (some (.id x, [.plain (if is64 then 0x42 else 0x41) []])) }]
  | .table _ _ (.inline _ is64 p), x => [{ field := .elem none (some (some (.id x), [.plain (if is64 then 0x42 else 0x41) []])) p }]
  | _, _ => []

/-- The least number of pages that has room for `len` bytes. -/
def IsPages (len : Nat) (log2 : Option Nat) (p : Nat) : Prop :=
  len ≤ p * 2 ^ log2.getD 16 ∧ ∀ q, len ≤ q * 2 ^ log2.getD 16 → p ≤ q

/-- An item called `id` without anything inline. -/
inductive Core : Src → Option Id → Out → Prop
  | other (name f) : Core (.other name f) none { field := f, name := name }
  | funcImport (i es ty e id) : Core (.func i es ty (.import e)) id { field := .import [⟨id, .func e ty⟩] }
  | func (i es ty b id) : Core (.func i es ty (.inline b)) id { field := .func id ty (some b) }
  | memoryImport (i es id) : Core (.memory i es .import) id { field := .import [⟨id, .memory⟩] }
  | memory (i es id) : Core (.memory i es .normal) id { field := .memory id }
  | memoryData (i es is64 len ps id p) : IsPages len ps p →
      Core (.memory i es (.inline is64 len ps)) id { field := .memory id, limits := some (p, some p) }
  | tableImport (i es h id) : Core (.table i es (.import h)) id { field := .import [⟨id, .table h⟩] }
  | table (i es h e id) : Core (.table i es (.normal h e)) id { field := .table id h e }
  | tableIndices (i es h is64 is id) : Core (.table i es (.inline h is64 (.indices is))) id
      { field := .table id h none, limits := some (is.length, some is.length) }
  | tableExprs (i es h is64 t xs id) : Core (.table i es (.inline h is64 (.exprs t xs))) id
      { field := .table id h none, limits := some (xs.length, some xs.length) }
  | globalImport (i es ty id) : Core (.global i es ty none) id { field := .import [⟨id, .global ty⟩] }
  | global (i es ty e id) : Core (.global i es ty (some e)) id { field := .global id ty (some e) }
  | tagImport (i es ty id) : Core (.tag i es ty true) id { field := .import [⟨id, .tag ty⟩] }
  | tag (i es ty id) : Core (.tag i es ty false) id { field := .tag id ty }

/-- An item is referred to by what is written inline. -/
def Src.used : Src → Bool
  | .memory _ es (.inline _ _ _) => true
  | .table _ es (.inline _ _ _) => true
  | f => !f.exports.isEmpty

/-- An item that needs a name and has none. -/
def Src.anonymous (f : Src) : Bool := f.id.isNone && f.used

/-- The fields a source field is short for, if `n` identifiers were generated
before: the exports, the segment, the item. -/
inductive Block (n : Nat) : Src → List Out → Prop
  /-- nothing refers to it -/
  | unused (f o) : f.used = false → Core f f.id o → Block n f [o]
  | used (f s x o) : f.used = true → f.space = some s →
      x = f.id.getD ⟨"gensym", n + 1⟩ → Core f (some x) o →
      Block n f (f.exports.map (fun e => { field := .export s (.id x), name := e }) ++ f.segment x ++ [o])

/-- The fields a module is short for, if `n` identifiers were generated before. -/
inductive Deinlined : Nat → List Src → List Out → Prop
  | nil (n) : Deinlined n [] []
  | cons (n f b fs os) : Block n f b → Deinlined (if f.anonymous then n + 1 else n) fs os →
      Deinlined n (f :: fs) (b ++ os)

/-- The identifiers (if any) of what a source field declares in a space of items. -/
def Src.names (s : Space) : Src → List (Option Id)
  | .other _ f => Resolve.space s (decls f)
  | f => if f.space = some s then [f.id] else []

/-- No identifier of a source field was generated and none that it refers to. -/
def Src.written : Src → Prop
  | .other _ f => kField false [] f
  | .func _ _ ty (.import _) => kUse false [] ty
  | .func _ _ ty (.inline b) => kUse false [] ty ∧ (∀ l ∈ b.1, kVal [] l.2) ∧ kExpr false [] b.2
  | .memory _ _ _ => True
  | .table _ _ (.import h) => kHeap [] h
  | .table _ _ (.normal h i) => kHeap [] h ∧ ∀ is ∈ i, kExpr false [] is
  | .table _ _ (.inline h _ p) => kHeap [] h ∧ kPayload false [] p
  | .global _ _ ty i => kVal [] ty ∧ ∀ is ∈ i, kExpr false [] is
  | .tag _ _ ty _ => kUse false [] ty

/-- The spaces of items, which can be exported. -/
def IsItem (s : Space) : Prop := s = .func ∨ s = .memory ∨ s = .table ∨ s = .global ∨ s = .tag

end Verif.Deinline
