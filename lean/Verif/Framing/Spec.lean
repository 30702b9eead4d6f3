import Verif.Framing.Model
import Verif.Parser.Spec
/-!
# What parsing an assembled module should report

For each section the payload, with the readers positioned on the payload bytes, and the
byte ranges computed from the lengths.
-/
namespace Verif.Framing
open Verif.Leb Verif.Reader Verif.Parser

/-- Length of a section header: the id and the encoded length of the contents. -/
def headerLen (contentLen : Nat) : Nat := 1 + (encodeU contentLen).length

/-- One body of the code section at offset `a`. -/
def bodyEvent (a : Nat) (body : List UInt8) : Event :=
  let h := (encodeU body.length).length
  ⟨h + body.length, .codeEntry ⟨body, 0, a + h⟩⟩

/-- The bodies of a code section one after another. -/
def bodyEvents : Nat → List (List UInt8) → List Event
  | _, [] => []
  | a, b :: bs => bodyEvent a b :: bodyEvents (a + (bodyEvent a b).consumed) bs

/-- Number of bytes of the bodies with their length prefixes. -/
def bodiesLen (bodies : List (List UInt8)) : Nat :=
  (bodies.map fun b => (encodeU b.length).length + b.length).sum

/-- The events for one section at offset `a`. -/
def sectEvents (a : Nat) : Sect → List Event
  | .items id count bytes =>
    let content := encodeU32 count ++ bytes
    let h := headerLen content.length
    [⟨h + content.length, .limited id count ⟨content, (encodeU32 count).length, a + h⟩⟩]
  | .code bodies =>
    let count := BitVec.ofNat 32 bodies.length
    let c := (encodeU32 count).length
    let h := headerLen (c + bodiesLen bodies)
    ⟨h + c, .codeStart count (a + h, a + h + c + bodiesLen bodies) (bodiesLen bodies)⟩ ::
      bodyEvents (a + h + c) bodies
  | .start f =>
    let n := (encodeU32 f).length
    let h := headerLen n
    [⟨h + n, .start f (a + h, a + h + n)⟩]
  | .dataCount c =>
    let n := (encodeU32 c).length
    let h := headerLen n
    [⟨h + n, .dataCount c (a + h, a + h + n)⟩]
  | .custom name data =>
    let content := encodeU name.length ++ name ++ data
    let h := headerLen content.length
    [⟨h + content.length, .custom name
      ⟨content, (encodeU name.length).length + name.length, a + h⟩⟩]
  | .raw id data =>
    let h := headerLen data.length
    [⟨h + data.length, .unknown id data (a + h, a + h + data.length)⟩]

/-- The events for sections from offset `a`, and the final `End`. -/
def sectsEvents : Nat → List Sect → List Event
  | a, [] => [⟨0, .endOf a⟩]
  | a, s :: ss => sectEvents a s ++ sectsEvents (a + totalConsumed (sectEvents a s)) ss

/-- The whole run for a module at offset `off`. -/
def moduleEvents (off : Nat) (ss : List Sect) : List Event :=
  ⟨8, .version 1 .module (off, off + 8)⟩ :: sectsEvents (off + 8) ss

/-- Conditions on single sections: known ids for sections with items, short valid names
(the reader's limits), ids unknown to the format for raw sections. -/
def Sect.Ok : Sect → Prop
  | .items id _ _ => id ∈ ([1, 2, 3, 4, 5, 6, 7, 9, 11, 13] : List UInt8)
  | .custom name _ => name.length ≤ 100000 ∧ validUtf8 name
  | .raw id _ => 14 ≤ id ∧ id < 128
  | _ => True

/-- The non-custom sections. -/
def Sect.known? : Sect → Option UInt8
  | .custom _ _ => none
  | .raw _ _ => none
  | s => some s.id

/-- Number of items that a section announces for section `id`. -/
def Sect.countFor (id : UInt8) : Sect → Option Nat
  | .items i c _ => if i = id then some c.toNat else none
  | .code bodies => if id = 10 then some bodies.length else none
  | .dataCount c => if id = 12 then some c.toNat else none
  | _ => none

/-- Number of items announced for section `id` (0 if there is none). -/
def countFor (id : UInt8) (ss : List Sect) : Nat := (ss.filterMap (Sect.countFor id)).sum

/-- A well-formed list of sections. -/
structure WellFormed (ss : List Sect) : Prop where
  ok : ∀ s ∈ ss, s.Ok
  order : (ss.filterMap Sect.known?).Sublist moduleOrder
  funcs : countFor 3 ss = countFor 10 ss
  data : (∃ n, Sect.dataCount n ∈ ss) → countFor 12 ss = countFor 11 ss

end Verif.Framing
