import Verif.Reader.Model

/-!
# Model of `wasmparser::Parser` (streaming parser of modules and components)

Source: `/repo/crates/wasmparser/src/parser.rs`.

Simplifications:
* `usize` has 64 bits; `u64` offsets are `Nat` with the explicit bound `u64Max` where
  the code checks it.
* `features` is dropped (it does not influence framing).
* The contents of sections are not decoded here (neither does the parser): a section
  payload holds the item count and the reader over the section.
* Error messages leave out interpolated numbers.
* Methods taking `&mut self` return the new parser also on failure, because the real
  parser keeps its mutated state when it answers `NeedMoreData`.
-/

namespace Verif.Parser
open Verif.Reader

/-- `u64::MAX`. -/
def u64Max : Nat := 2 ^ 64 - 1

/-- `enum Encoding` (lines 38-43). -/
inductive Encoding where
  | module
  | component
  deriving DecidableEq, Repr

/-- `struct ParserCounts` (lines 46-53). -/
structure Counts where
  functionEntries : Option Nat := none
  codeEntries : Option Nat := none
  dataEntries : Option Nat := none
  dataCount : Option Nat := none
  componentStartSections : Bool := false
  deriving DecidableEq, Repr

/-- `enum Order` (lines 59-77). -/
inductive Order where
  | initial | type | import | function | table | memory | tag | global | export | start
  | element | dataCount | code | data
  deriving DecidableEq, Repr

/-- The derived `PartialOrd` of `Order` (line 59): declaration order. -/
def Order.rank : Order → Nat
  | .initial => 0 | .type => 1 | .import => 2 | .function => 3 | .table => 4 | .memory => 5
  | .tag => 6 | .global => 7 | .export => 8 | .start => 9 | .element => 10 | .dataCount => 11
  | .code => 12 | .data => 13

/-- `enum State` (lines 100-104). -/
inductive State where
  | header
  | sectionStart
  | functionBody (remaining len : Nat)
  deriving DecidableEq, Repr

/-- `struct Parser` (lines 88-98). -/
structure Parser where
  state : State
  offset : Nat
  maxOffset : Option Nat
  encoding : Encoding
  counts : Counts
  order : Order × Nat
  deriving DecidableEq, Repr

/-- `Parser::new` (lines 403-415). -/
def Parser.new (offset : Nat) : Parser :=
  { state := .header, offset := offset, maxOffset := none, encoding := .module, counts := {},
    order := (.initial, offset) }

/-- `enum Payload` (lines 137-358). `limited id count reader` stands for all the
variants holding a `SectionLimited` (the section id tells which), `nested` for
`ModuleSection`/`ComponentSection`. Ranges are pairs of offsets. -/
inductive Payload where
  | version (num : Nat) (encoding : Encoding) (range : Nat × Nat)
  | limited (id : UInt8) (count : BitVec 32) (reader : Reader)
  | custom (name : List UInt8) (reader : Reader)
  | start (func : BitVec 32) (range : Nat × Nat)
  | dataCount (count : BitVec 32) (range : Nat × Nat)
  | codeStart (count : BitVec 32) (range : Nat × Nat) (size : Nat)
  | codeEntry (body : Reader)
  | nested (isModule : Bool) (parser : Parser) (range : Nat × Nat)
  | componentStart (func : BitVec 32) (args : List (BitVec 32)) (results : Nat)
      (range : Nat × Nat)
  | unknown (id : UInt8) (contents : List UInt8) (range : Nat × Nat)
  | endOf (offset : Nat)
  deriving DecidableEq, Repr

/-- `enum Chunk` (lines 112-135). -/
inductive Chunk where
  | needMoreData (hint : Nat)
  | parsed (consumed : Nat) (payload : Payload)
  deriving DecidableEq, Repr

/-- `update_order` (lines 673-686); on error `self` is unchanged. -/
def updateOrder (p : Parser) (order : Order) (pos : Nat) : Except Err Parser :=
  if p.encoding = .module ∧ p.order.1.rank ≥ order.rank ∧ p.order.2 < pos then
    .error (.msg "section out of order" pos)
  else .ok { p with order := (order, pos) }

/-- `check_function_code_counts` (lines 1200-1215). -/
def checkFunctionCodeCounts (c : Counts) (pos : Nat) : Except Err Unit :=
  match c.functionEntries, c.codeEntries with
  | some n, some m =>
    if n ≠ m then .error (.msg "function and code section have inconsistent lengths" pos)
    else .ok ()
  | some n, none =>
    if n > 0 then
      .error (.msg "function section has non-zero count but code section is absent" pos)
    else .ok ()
  | none, some m =>
    if m > 0 then
      .error (.msg "function section is absent but code section has non-zero count" pos)
    else .ok ()
  | none, none => .ok ()

/-- `check_data_count` (lines 1217-1227). -/
def checkDataCount (c : Counts) (pos : Nat) : Except Err Unit :=
  match c.dataCount, c.dataEntries with
  | some n, some m =>
    if n ≠ m then .error (.msg "data count and data section have inconsistent lengths" pos)
    else .ok ()
  | some n, none =>
    if n > 0 then .error (.msg "data count is non-zero but data section is absent" pos)
    else .ok ()
  | none, _ => .ok ()

/-- `Error::without_needed_hint` (`/repo/crates/wasmparser/src/error.rs` lines 130-133). -/
def withoutNeededHint : Err → Err
  | .eof o _ => .msg "unexpected end-of-file" o
  | e => e

/-- `….map_err(Error::without_needed_hint)?` -/
def noHint (x : Except Err α) : R α := fun r =>
  match x with
  | .ok a => .ok (a, r)
  | .error e => .error (withoutNeededHint e)

/-- `section` (lines 1234-1249): `ctor` gets the reader over the section contents. -/
def sectionOf (len : Nat) (ctor : Reader → Except Err α) : R α := do
  let sub ← skip (do let _ ← readBytes len)
  noHint (ctor sub)

/-- `SectionLimited::new` (`/repo/crates/wasmparser/src/readers.rs` lines 107-114). -/
def limitedNew (rd : Reader) : Except Err (BitVec 32 × Reader) := readVarU32 rd

/-- `CustomSectionReader::new` (`/repo/crates/wasmparser/src/readers/core/custom.rs`
lines 14-17). -/
def customNew (rd : Reader) : Except Err (List UInt8 × Reader) := readString rd

/-- `single_item` (lines 1252-1277). -/
def singleItem (sectionEnd : Nat) (item : R α) (desc : String) : R (α × (Nat × Nat)) := do
  let start ← readPos
  let content ← skip (do let _ ← readBytes ((sectionEnd - start) % 2 ^ 32))
  let (a, content) ← noHint (item content)
  if !content.eof then
    R.fail ("unexpected content in the " ++ desc ++ " section") content.originalPosition
  else pure (a, (start, sectionEnd))

/-- `delimited` (lines 1284-1300): also returns the updated `*len`. -/
def delimited (len : Nat) (f : R α) : R (α × Nat) := do
  let start ← readPos
  let a ← f
  let pos ← readPos
  if pos - start ≤ len then pure (a, len - (pos - start))
  else R.fail "unexpected end-of-file" start

/-- `ComponentStartFunction::from_reader`
(`/repo/crates/wasmparser/src/readers/component/start.rs` lines 18-31). The limits are
`MAX_WASM_START_ARGS = 1000` and `MAX_WASM_FUNCTION_RETURNS = 1000` (limits.rs 84, 34). -/
def readComponentStart : R (BitVec 32 × List (BitVec 32) × Nat) := do
  let func ← readVarU32
  let args ← readIter readVarU32 1000 "start function arguments"
  let results ← readSize 1000 "start function results"
  pure (func, args, results)

/-- What is read before the contents of a section (lines 729-757). -/
structure Header where
  id : UInt8
  lenPos : Nat
  len : BitVec 32
  start : Nat
  stop : Nat
  deriving DecidableEq, Repr

/-- Lines 729-757: section id, length and the check against `max_offset`. -/
def readSectionHeader (maxOffset : Option Nat) : R Header := do
  let idPos ← readPos
  let id ← readU8
  if id &&& 0x80 ≠ 0 then R.fail "malformed section id" idPos
  else do
    let lenPos ← readPos
    let len ← readVarU32
    let start ← readPos
    if start + len.toNat ≤ u64Max ∧ start + len.toNat ≤ maxOffset.getD u64Max then
      pure { id := id, lenPos := lenPos, len := len, start := start, stop := start + len.toNat }
    else R.fail "section too large" lenPos

/-- Run a reader action and finish with a state update; the parser `p` is what remains
if the action fails. -/
def runBody (p : Parser) (body : R α) (fin : α → Nat → Except Err Payload × Parser)
    (r : Reader) : Except Err (Payload × Reader) × Parser :=
  match body r with
  | .error e => (.error e, p)
  | .ok (a, r') =>
    match fin a r'.originalPosition with
    | (.error e, p') => (.error e, p')
    | (.ok pl, p') => (.ok (pl, r'), p')

/-- The `Order` that the arm for a module section id passes to `update_order`
(lines 763-853). -/
def orderOf (id : UInt8) : Option Order :=
  if id = 1 then some .type
  else if id = 2 then some .import
  else if id = 3 then some .function
  else if id = 4 then some .table
  else if id = 5 then some .memory
  else if id = 6 then some .global
  else if id = 7 then some .export
  else if id = 8 then some .start
  else if id = 9 then some .element
  else if id = 10 then some .code
  else if id = 11 then some .data
  else if id = 12 then some .dataCount
  else if id = 13 then some .tag
  else none

/-- The arms for module sections after `update_order` (lines 763-853). -/
def moduleBody (p : Parser) (h : Header) (r : Reader) : Except Err (Payload × Reader) × Parser :=
  if h.id = 3 then -- function section, lines 771-778
    runBody p (sectionOf h.len.toNat limitedNew) (fun (c, rd) _ =>
      (.ok (.limited h.id c rd),
        { p with counts := { p.counts with functionEntries := some c.toNat } })) r
  else if h.id = 8 then -- start section, lines 795-799
    runBody p (singleItem h.stop readVarU32 "start") (fun (f, rg) _ => (.ok (.start f rg), p)) r
  else if h.id = 10 then -- code section, lines 804-820
    runBody p (delimited h.len.toNat readVarU32) (fun (count, len) _ =>
      let p := { p with counts := { p.counts with codeEntries := some count.toNat } }
      match checkFunctionCodeCounts p.counts h.start with
      | .error e => (.error e, p)
      | .ok () => (.ok (.codeStart count (h.start, h.stop) len),
          { p with state := .functionBody count.toNat len })) r
  else if h.id = 11 then -- data section, lines 821-830
    runBody p (sectionOf h.len.toNat limitedNew) (fun (c, rd) pos =>
      let p := { p with counts := { p.counts with dataEntries := some c.toNat } }
      match checkDataCount p.counts pos with
      | .error e => (.error e, p)
      | .ok () => (.ok (.limited h.id c rd), p)) r
  else if h.id = 12 then -- data count section, lines 831-836
    runBody p (singleItem h.stop readVarU32 "data count") (fun (c, rg) _ =>
      (.ok (.dataCount c rg),
        { p with counts := { p.counts with dataCount := some c.toNat } })) r
  else -- the other sections: lines 763-770, 779-794, 800-803, 837-840
    runBody p (sectionOf h.len.toNat limitedNew) (fun (c, rd) _ =>
      (.ok (.limited h.id c rd), p)) r

/-- The last arm (lines 944-953): sections with an unknown id. -/
def unknownBody (p : Parser) (h : Header) (r : Reader) : Except Err (Payload × Reader) × Parser :=
  runBody p (do let off ← readPos; let c ← readBytes h.len.toNat; pure (off, c))
    (fun (off, c) _ => (.ok (.unknown h.id c (off, h.stop)), p)) r

/-- `MAX_WASM_MODULE_SIZE` (limits.rs line 68). -/
def maxWasmModuleSize : Nat := 1024 * 1024 * 1024

/-- The arms for component sections (lines 842-942). -/
def componentBody (p : Parser) (h : Header) (r : Reader) :
    Except Err (Payload × Reader) × Parser :=
  if h.id = 1 ∨ h.id = 4 then -- nested module / component, lines 843-882
    if h.len.toNat > maxWasmModuleSize then (.error (.msg "section is too large" h.lenPos), p)
    else
      (.ok (.nested (h.id = 1) { Parser.new h.start with maxOffset := some h.stop }
          (h.start, h.stop), r),
        { p with offset := p.offset + h.len.toNat })
  else if h.id = 9 then -- component start, lines 912-926
    if p.counts.componentStartSections then
      (.error (.msg "component cannot have more than one start function" r.originalPosition), p)
    else
      let p := { p with counts := { p.counts with componentStartSections := true } }
      runBody p (singleItem h.stop readComponentStart "component start")
        (fun ((f, as, n), rg) _ => (.ok (.componentStart f as n rg), p)) r
  else if h.id = 2 ∨ h.id = 3 ∨ h.id = 5 ∨ h.id = 6 ∨ h.id = 7 ∨ h.id = 8 ∨ h.id = 10 ∨
      h.id = 11 then -- lines 884-911, 927-942
    runBody p (sectionOf h.len.toNat limitedNew) (fun (c, rd) _ =>
      (.ok (.limited h.id c rd), p)) r
  else unknownBody p h r

/-- `match (self.encoding, id)` (lines 759-954). -/
def parseSection (p : Parser) (h : Header) (r : Reader) :
    Except Err (Payload × Reader) × Parser :=
  if h.id = 0 then -- custom sections, line 761
    runBody p (sectionOf h.len.toNat customNew) (fun (n, rd) _ => (.ok (.custom n rd), p)) r
  else match p.encoding with
    | .module =>
      match orderOf h.id with
      | some o =>
        match updateOrder p o h.start with
        | .error e => (.error e, p)
        | .ok p => moduleBody p h r
      | none => unknownBody p h r
    | .component => componentBody p h r

/-- `State::SectionStart` (lines 714-955). -/
def parseSectionStart (p : Parser) (r : Reader) (eof : Bool) :
    Except Err (Payload × Reader) × Parser :=
  if eof ∧ r.bytesRemaining = 0 then
    match checkFunctionCodeCounts p.counts r.originalPosition with
    | .error e => (.error e, p)
    | .ok () =>
      match checkDataCount p.counts r.originalPosition with
      | .error e => (.error e, p)
      | .ok () => (.ok (.endOf r.originalPosition, r), p)
  else if peekBytes r 4 = .ok wasmMagic then
    (.error (.msg "expected section, got wasm magic number" r.originalPosition), p)
  else
    match readSectionHeader p.maxOffset r with
    | .error e => (.error e, p)
    | .ok (h, r') => parseSection p h r'

/-- `State::Header` (lines 696-713). The version number is the low, the kind the high half
of the `u32` after the magic number. -/
def parseHeader (p : Parser) (r : Reader) : Except Err (Payload × Reader) × Parser :=
  let start := r.originalPosition
  match readHeaderVersion r with
  | .error e => (.error e, p)
  | .ok (v, r') =>
    let num := v.toNat % 2 ^ 16
    let kind := v.toNat / 2 ^ 16
    if num = 1 ∧ kind = 0 then
      (.ok (.version num .module (start, r'.originalPosition), r'),
        { p with encoding := .module, state := .sectionStart })
    else if num = 0xd ∧ kind = 1 then
      (.ok (.version num .component (start, r'.originalPosition), r'),
        { p with encoding := .component, state := .sectionStart })
    else (.error (.msg "unknown binary version" (start + 4)), p)

/-- `State::FunctionBody` with entries remaining (lines 993-1003). -/
def parseFunctionBody (p : Parser) (remaining len : Nat) (r : Reader) :
    Except Err (Payload × Reader) × Parser :=
  runBody p (delimited len readReader) (fun (body, len) _ =>
    (.ok (.codeEntry body), { p with state := .functionBody (remaining - 1) len })) r

/-- `parse_reader` (lines 688-1005). -/
def parseReader (p : Parser) (r : Reader) (eof : Bool) :
    Except Err (Payload × Reader) × Parser :=
  match p.state with
  | .header => parseHeader p r
  | .sectionStart => parseSectionStart p r eof
  | .functionBody remaining len =>
    if remaining = 0 then
      if len = 0 then parseSectionStart { p with state := .sectionStart } r eof
      else (.error (.msg "trailing bytes at end of section" r.originalPosition), p)
    else parseFunctionBody p remaining len r

/-- `parse` (lines 624-671). -/
def parse (p : Parser) (data : List UInt8) (eof : Bool) : Except Err Chunk × Parser :=
  let maxLen := p.maxOffset.getD u64Max - p.offset
  if maxLen < data.length ∧ p.maxOffset = none then
    (.error (.msg "Content too large to parse" p.offset), p)
  else
    let (data, eof) := if maxLen < data.length then (data.take maxLen, true) else (data, eof)
    match parseReader p (Reader.new data p.offset) eof with
    | (.ok (payload, r'), p') =>
      (.ok (.parsed r'.position payload), { p' with offset := p'.offset + r'.position })
    | (.error e, p') =>
      if eof then (.error e, p')
      else match e with
        | .eof _ hint => (.ok (.needMoreData hint), p')
        | .msg _ _ => (.error e, p')

end Verif.Parser
