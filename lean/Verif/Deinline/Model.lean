import Verif.Resolve.Model

/-!
# Text format: inline imports, exports, data and elements
(`crates/wast/src/core/resolve/deinline_import_export.rs`)
-/

namespace Verif.Deinline

open Verif.Expand Verif.Resolve

/-- `FuncKind`, `crates/wast/src/core/func.rs:30-48`: an inline import (exact or not),
or locals and body. -/
inductive FuncKind where
  | import (exact : Bool)
  | inline (body : List (Option Id × ValTy) × List Instr)
deriving DecidableEq, Repr

/-- `MemoryKind`, `crates/wast/src/core/memory.rs:24-44`; of the data there is the
length. -/
inductive MemKind where
  | import
  | normal
  | inline (is64 : Bool) (len : Nat) (pageSizeLog2 : Option Nat)
deriving DecidableEq, Repr

/-- `TableKind`, `crates/wast/src/core/table.rs:24-52`. -/
inductive TableKind where
  | import (elem : Heap)
  | normal (elem : Heap) (init : Option (List Instr))
  | inline (elem : Heap) (is64 : Bool) (payload : Payload)
deriving DecidableEq, Repr

/-- `ModuleField`, `crates/wast/src/core/module.rs:130-147`, as parsed.  Items have
the names they are exported as; the names of imports are left out.  `other` are
the fields without anything inline; `name` is that of an export. -/
inductive Src where
  | other (name : String) (f : Field)
  | func (id : Option Id) (exports : List String) (ty : TypeUse) (kind : FuncKind)
  | memory (id : Option Id) (exports : List String) (kind : MemKind)
  | table (id : Option Id) (exports : List String) (kind : TableKind)
  /-- without `init` an inline import -/
  | global (id : Option Id) (exports : List String) (ty : ValTy) (init : Option (List Instr))
  | tag (id : Option Id) (exports : List String) (ty : TypeUse) (imported : Bool)
deriving DecidableEq, Repr

/-- A field after the pass, with the name of an export and the limits that the
pass gives to a memory or table with inline contents. -/
structure Out where
  field : Field
  name : String := ""
  limits : Option (Nat × Option Nat) := none
deriving DecidableEq, Repr

/-- `gensym::fill`, `crates/wast/src/gensym.rs:18-20`: the identifier, now there,
and the counter. -/
def fill (id : Option Id) (n : Nat) : Id × Nat :=
  match id with
  | some x => (x, n)
  | none => (⟨"gensym", n + 1⟩, n + 1)

/-- The loops over `exports.names` with `export`,
`crates/wast/src/core/resolve/deinline_import_export.rs:10-12, 226-239`. -/
def pushExports (s : Space) : List String → Option Id → Nat → List Out × Option Id × Nat
  | [], id, n => ([], id, n)
  | e :: es, id, n =>
    let r := fill id n
    let q := pushExports s es (some r.1) r.2
    (⟨.export s (.id r.1), e, none⟩ :: q.1, q.2)

/-- `default_page_size`, `crates/wast/src/core/resolve/deinline_import_export.rs:221-223`. -/
def defaultPageSize : Nat := 2 ^ 16

/-- The number of pages of inline data,
`crates/wast/src/core/resolve/deinline_import_export.rs:59-64`; 64-bit arithmetic
does not overflow here (page sizes have less than 32 bits, see
`crates/wast/src/core/types.rs:660-678`). -/
def pages (len : Nat) (log2 : Option Nat) : Nat :=
  let size := match log2 with
    | some k => 2 ^ k
    | none => defaultPageSize
  (len + size - 1) / size

/-- `Expression::one` of a constant zero,
`crates/wast/src/core/resolve/deinline_import_export.rs:86-90`. -/
def zero (is64 : Bool) : List Instr := [.plain (if is64 then 0x42 else 0x41) []]

/-- The length of a payload, `crates/wast/src/core/resolve/deinline_import_export.rs:127-130`. -/
def payloadLen : Payload → Nat
  | .indices is => is.length
  | .exprs _ es => es.length

/-- The body of the loop of `run`,
`crates/wast/src/core/resolve/deinline_import_export.rs:7-219`. -/
def item : Src → Nat → List Out × Nat
  | .other name f, n => ([⟨f, name, none⟩], n)
  | .func id es ty k, n =>
    let r := pushExports .func es id n
    match k with
    | .import exact => (r.1 ++ [⟨.import [⟨r.2.1, .func exact ty⟩], "", none⟩], r.2.2)
    | .inline b => (r.1 ++ [⟨.func r.2.1 ty (some b), "", none⟩], r.2.2)
  | .memory id es k, n =>
    let r := pushExports .memory es id n
    match k with
    | .import => (r.1 ++ [⟨.import [⟨r.2.1, .memory⟩], "", none⟩], r.2.2)
    | .normal => (r.1 ++ [⟨.memory r.2.1, "", none⟩], r.2.2)
    | .inline is64 len ps =>
      let p := pages len ps
      let x := fill r.2.1 r.2.2
      (r.1 ++ [⟨.data none (some (.id x.1, zero is64)), "", none⟩] ++ [⟨.memory (some x.1), "", some (p, some p)⟩], x.2)
  | .table id es k, n =>
    let r := pushExports .table es id n
    match k with
    | .import h => (r.1 ++ [⟨.import [⟨r.2.1, .table h⟩], "", none⟩], r.2.2)
    | .normal h i => (r.1 ++ [⟨.table r.2.1 h i, "", none⟩], r.2.2)
    | .inline h is64 p =>
      let x := fill r.2.1 r.2.2
      (r.1 ++ [⟨.elem none (some (some (.id x.1), zero is64)) p, "", none⟩] ++
        [⟨.table (some x.1) h none, "", some (payloadLen p, some (payloadLen p))⟩], x.2)
  | .global id es ty i, n =>
    let r := pushExports .global es id n
    match i with
    | none => (r.1 ++ [⟨.import [⟨r.2.1, .global ty⟩], "", none⟩], r.2.2)
    | some i => (r.1 ++ [⟨.global r.2.1 ty (some i), "", none⟩], r.2.2)
  | .tag id es ty imp, n =>
    let r := pushExports .tag es id n
    if imp then (r.1 ++ [⟨.import [⟨r.2.1, .tag ty⟩], "", none⟩], r.2.2)
    else (r.1 ++ [⟨.tag r.2.1 ty, "", none⟩], r.2.2)

/-- `run`, `crates/wast/src/core/resolve/deinline_import_export.rs:6-219`. -/
def run : List Src → Nat → List Out × Nat
  | [], n => ([], n)
  | f :: fs, n =>
    let r := item f n
    let q := run fs r.2
    (r.1 ++ q.1, q.2)

/-- `resolve`, `crates/wast/src/core/resolve/mod.rs:22-60`: the counter starts at 0. -/
def resolveSource (fields : List Src) : M (List Field) :=
  let r := run fields 0
  resolveModule r.2 (r.1.map (·.field))

end Verif.Deinline
