import Verif.Parser.Model
/-!
# Specification of driving the streaming parser

The documented way of using `Parser::parse` (`/repo/crates/wasmparser/src/parser.rs`
lines 545-623, and `parse_all`, lines 1094-1134): keep a buffer of unconsumed input; when
told `NeedMoreData` append the next chunk of input; drop consumed bytes; parse nested
modules and components with the parser of the payload and return to the parent at their
`End`. `eof` is passed exactly when no chunk is left.
-/
namespace Verif.Parser
open Verif.Reader

/-- A reported payload with the number of bytes its parsing consumed. -/
structure Event where
  consumed : Nat
  payload : Payload
  deriving DecidableEq, Repr

/-- Which parser continues after a payload (`none`: all done). -/
def next (payload : Payload) (p : Parser) (stack : List Parser) :
    Option (Parser × List Parser) :=
  match payload with
  | .nested _ q _ => some (q, p :: stack)
  | .endOf _ =>
    match stack with
    | [] => none
    | q :: stack => some (q, stack)
  | _ => some (p, stack)

/-- `Drive p stack buf future trace result`: with parser `p`, suspended parents `stack`,
buffered bytes `buf` and chunks `future` still to come, the driver sees the payloads
`trace` and finishes with `result` (`none`: success). -/
inductive Drive : Parser → List Parser → List UInt8 → List (List UInt8) → List Event →
    Option Err → Prop where
  | more {p p' st buf c future k tr out} :
      parse p buf false = (.ok (.needMoreData k), p') →
      Drive p' st (buf ++ c) future tr out →
      Drive p st buf (c :: future) tr out
  | step {p p' st buf future n pl q st' tr out} :
      parse p buf future.isEmpty = (.ok (.parsed n pl), p') →
      next pl p' st = some (q, st') →
      Drive q st' (buf.drop n) future tr out →
      Drive p st buf future (⟨n, pl⟩ :: tr) out
  | done {p p' st buf future n pl} :
      parse p buf future.isEmpty = (.ok (.parsed n pl), p') →
      next pl p' st = none →
      Drive p st buf future [⟨n, pl⟩] none
  | err {p p' st buf future e} :
      parse p buf future.isEmpty = (.error e, p') →
      Drive p st buf future [] (some e)

/-- All the input at once, as in `Parser::parse_all`. -/
def DriveAll (p : Parser) (input : List UInt8) (tr : List Event) (out : Option Err) : Prop :=
  Drive p [] input [] tr out

/-- The payload of a component start section. -/
def IsStart (pl : Payload) : Prop := ∃ f as n rg, pl = .componentStart f as n rg

/-- The input does not start like a component (core modules, and everything malformed). -/
def NotComponent (input : List UInt8) : Prop :=
  input.take 8 ≠ [0x00, 0x61, 0x73, 0x6d, 0x0d, 0x00, 0x01, 0x00]

instance (input : List UInt8) : Decidable (NotComponent input) :=
  inferInstanceAs (Decidable (_ ≠ _))

/-- The payload announcing a component. -/
def IsComponent (pl : Payload) : Prop := ∃ num rg, pl = .version num .component rg

/-- The reader shows the bytes of the input from its offset up to the end of `bytes`,
where `bytes` is the part of the input at offset `a`. -/
def ShowsEnd (rd : Reader) (a : Nat) (bytes : List UInt8) : Prop :=
  a < rd.originalOffset ∧ rd.buffer = bytes.drop (rd.originalOffset - a) ∧
  rd.originalOffset + rd.buffer.length = a + bytes.length

/-- The offsets and contents of a payload agree with the bytes consumed for it, which
are `bytes`, found at offset `a` of the input. -/
def Fits (pl : Payload) (a : Nat) (bytes : List UInt8) : Prop :=
  match pl with
  | .version _ _ rg => rg = (a, a + 8) ∧ bytes.length = 8
  | .limited id _ rd => bytes.head? = some id ∧ ShowsEnd rd a bytes
  | .custom _ rd => bytes.head? = some 0 ∧ ShowsEnd rd a bytes
  | .start _ rg => bytes.head? = some 8 ∧ a < rg.1 ∧ rg.1 ≤ rg.2 ∧ rg.2 = a + bytes.length
  | .dataCount _ rg => bytes.head? = some 12 ∧ a < rg.1 ∧ rg.1 ≤ rg.2 ∧
      rg.2 = a + bytes.length
  | .codeStart _ rg size => bytes.head? = some 10 ∧ a < rg.1 ∧ rg.1 ≤ a + bytes.length ∧
      rg.2 = a + bytes.length + size
  | .codeEntry rd => ShowsEnd rd a bytes
  | .nested isModule q rg => bytes.head? = some (if isModule then 1 else 4) ∧
      rg.1 = a + bytes.length ∧ rg.1 ≤ rg.2 ∧ q = { Parser.new rg.1 with maxOffset := some rg.2 }
  | .componentStart _ _ _ rg => bytes.head? = some 9 ∧ a < rg.1 ∧ rg.1 ≤ rg.2 ∧
      rg.2 = a + bytes.length
  | .unknown id contents rg => bytes.head? = some id ∧ a < rg.1 ∧
      contents = bytes.drop (rg.1 - a) ∧ rg.2 = a + bytes.length ∧
      rg.1 + contents.length = rg.2
  | .endOf _ => bytes = []

/-- The events consume consecutive pieces of the input that starts at offset `a`, and
each payload fits its piece. -/
def Tiles : Nat → List UInt8 → List Event → Prop
  | _, _, [] => True
  | a, input, ev :: tr =>
    ev.consumed ≤ input.length ∧ Fits ev.payload a (input.take ev.consumed) ∧
    Tiles (a + ev.consumed) (input.drop ev.consumed) tr

/-- The order of the non-custom sections of a module (core specification, binary format,
"Modules", section 5.5.16): type, import, function, table, memory, tag, global, export,
start, element, data count, code, data. -/
def moduleOrder : List UInt8 := [1, 2, 3, 4, 5, 13, 6, 7, 8, 9, 12, 10, 11]

/-- The id of the non-custom module section that a payload announces. -/
def sectionId? : Payload → Option UInt8
  | .limited id _ _ => some id
  | .start _ _ => some 8
  | .dataCount _ _ => some 12
  | .codeStart _ _ _ => some 10
  | _ => none

/-- The non-custom sections seen in a run. -/
def sectionIds (tr : List Event) : List UInt8 := tr.filterMap (fun ev => sectionId? ev.payload)

/-- The number of items that a payload announces for the section `id`. -/
def announces (id : UInt8) : Payload → Option Nat
  | .limited i c _ => if i = id then some c.toNat else none
  | .codeStart c _ _ => if id = 10 then some c.toNat else none
  | .dataCount c _ => if id = 12 then some c.toNat else none
  | _ => none

/-- The number of items announced in a run for the section `id` (0 if it is absent). -/
def announced (id : UInt8) (tr : List Event) : Nat :=
  (tr.filterMap fun ev => announces id ev.payload).sum

/-- The number of function bodies reported. -/
def bodies (tr : List Event) : Nat :=
  (tr.filter fun ev => match ev.payload with | .codeEntry _ => true | _ => false).length

/-- Total number of bytes consumed. -/
def totalConsumed (tr : List Event) : Nat := (tr.map Event.consumed).sum

end Verif.Parser
