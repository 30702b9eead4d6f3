import Verif.Parser.Model
import Verif.Framing.Model
/-!
# Model of the producers section

Sources: `/repo/crates/wasm-metadata/src/producers.rs`,
`/repo/crates/wasm-encoder/src/core/producers.rs`,
`/repo/crates/wasmparser/src/readers/core/producers.rs` and `readers.rs`.

Strings are their bytes. An `IndexMap` is the list of its entries in insertion order; its
operations used here are below. Encoders return `none` where the code panics.
-/
namespace Verif.Meta
open Verif.Leb Verif.Reader Verif.Parser Verif.Framing

/-- `String`/`&str`. -/
abbrev Str := List UInt8

/-- `IndexMap::get`. -/
def get (m : List (Str × α)) (k : Str) : Option α :=
  match m with
  | [] => none
  | (k', v) :: m => if k' = k then some v else get m k

/-- `IndexMap::insert`: an existing entry keeps its place, a new one goes to the end. -/
def insert (m : List (Str × α)) (k : Str) (v : α) : List (Str × α) :=
  match m with
  | [] => [(k, v)]
  | (k', v') :: m => if k' = k then (k', v) :: m else (k', v') :: insert m k v

/-- `IndexMap<String, String>`: the values of a field. -/
abbrev Field := List (Str × Str)

/-- `struct Producers` (producers.rs lines 12-18). -/
abbrev Producers := List (Str × Field)

/-- `Producers::empty` (lines 28-30). -/
def empty : Producers := []

/-- `Producers::add` (lines 79-90). An occupied entry is changed in place. -/
def add (p : Producers) (field name version : Str) : Producers :=
  match get p field with
  | some m => insert p field (insert m name version)
  | none => p ++ [(field, insert [] name version)]

/-- `Producers::merge` (lines 94-100). -/
def merge (p other : Producers) : Producers :=
  other.foldl (fun p e => e.2.foldl (fun p nv => add p e.1 nv.1 nv.2) p) p

/-- `Producers::get(field)` and `ProducersField::get(name)` (lines 103-105, 166-168). -/
def getVersion (p : Producers) (field name : Str) : Option Str := (get p field).bind (get · name)

/-- `"language"`, `"processed-by"`, `"sdk"`. -/
def language : Str := [108, 97, 110, 103, 117, 97, 103, 101]
def processedBy : Str := [112, 114, 111, 99, 101, 115, 115, 101, 100, 45, 98, 121]
def sdk : Str := [115, 100, 107]
/-- `"producers"`. -/
def producersName : Str := [112, 114, 111, 100, 117, 99, 101, 114, 115]

/-- `Producers::from_meta` (lines 115-127) on the three lists of `AddMetadata`. -/
def fromMeta (languages processed sdks : List (Str × Str)) : Producers :=
  let s := languages.foldl (fun s lv => add s language lv.1 lv.2) empty
  let s := processed.foldl (fun s nv => add s processedBy nv.1 nv.2) s
  sdks.foldl (fun s nv => add s sdk nv.1 nv.2) s

/-! ## Encoding -/

/-- `ProducersField`/`ProducersSection` of wasm-encoder (lines 28-31, 80-83). -/
structure Enc where
  bytes : List UInt8 := []
  count : BitVec 32 := 0

/-- `ProducersField::value` (lines 94-99); the addition wraps as in a release build. -/
def Enc.value (e : Enc) (name version : Str) : Option Enc := do
  let n ← encodeSlice name
  let v ← encodeSlice version
  some ⟨e.bytes ++ n ++ v, e.count + 1⟩

/-- `ProducersField::encode` (lines 111-116), and the same bytes written by
`ProducersSection::encode` before they are wrapped in a custom section (lines 59-63). -/
def Enc.encode (e : Enc) : List UInt8 := encodeU32 e.count ++ e.bytes

/-- `ProducersSection::field` (lines 42-47). -/
def Enc.field (e : Enc) (name : Str) (values : Enc) : Option Enc := do
  let n ← encodeSlice name
  some ⟨e.bytes ++ n ++ values.encode, e.count + 1⟩

/-- `Producers::section` (producers.rs lines 130-140). -/
def section_ (p : Producers) : Option Enc :=
  p.foldlM (fun e fv => do
    let field ← fv.2.foldlM (fun e nv => e.value nv.1 nv.2) ({} : Enc)
    e.field fv.1 field) ({} : Enc)

/-- The custom section that `ProducersSection::encode` writes (lines 58-70). -/
def customSection (p : Producers) : Option Sect := do
  let e ← section_ p
  some (.custom producersName e.encode)

/-! ## Reading -/

/-- `SectionLimitedIntoIter` (readers.rs lines 169-216) used in a `for` loop that returns at
the first error: `step` is the loop body. -/
def forEach (f : R α) (step : β → α → Except Err β) : Nat → β → Reader → Except Err β
  | 0, acc, r =>
    if r.eof then .ok acc
    else .error (.msg "section size mismatch: unexpected data at the end of the section"
      r.originalPosition)
  | n + 1, acc, r =>
    match f r with
    | .error e => .error e
    | .ok (a, r) =>
      match step acc a with
      | .error e => .error e
      | .ok acc => forEach f step n acc r

/-- `ProducersFieldValue::from_reader` (lines 78-83). -/
def readFieldValue : R (Str × Str) := do
  let name ← readUnlimitedString
  let version ← readUnlimitedString
  pure (name, version)

/-- The part of a reader's input that is left to an inner reader: `SectionLimited::new` on
`values` (lines 62-65). Errors of the inner reader are returned. -/
def inner (f : Except Err α) : R α := fun r =>
  match f with
  | .error e => .error e
  | .ok a => .ok (a, r)

/-- `ProducersField::from_reader` (lines 47-67). The values are a count and a reader. -/
def readField : R (Str × BitVec 32 × Reader) := do
  let offset ← readPos
  let name ← readUnlimitedString
  if name = language ∨ name = sdk ∨ name = processedBy then do
    let values ← skip (do
      let n ← readVarU32
      let _ ← readMany (do skipString; skipString) n.toNat)
    let s ← inner (limitedNew values)
    pure (name, s)
  else R.fail "invalid producers field name" offset

/-- The inner loop of `Producers::from_bytes` (lines 67-71). -/
def readValues (s : BitVec 32 × Reader) : Except Err Field :=
  forEach readFieldValue (fun m nv => .ok (insert m nv.1 nv.2)) s.1.toNat [] s.2

/-- `Producers::from_bytes` (lines 60-74). -/
def fromBytes (bytes : List UInt8) (offset : Nat) : Except Err Producers :=
  match limitedNew (Reader.new bytes offset) with
  | .error e => .error e
  | .ok (count, rd) =>
    forEach readField (fun fields f =>
      match readValues f.2 with
      | .error e => .error e
      | .ok values => .ok (insert fields f.1 values)) count.toNat [] rd

end Verif.Meta
