import Verif.Instr.DecTable
/-! The control stack of `OperatorsReader`
(crates/wasmparser/src/readers/core/operators.rs). -/
namespace Verif.Instr
open Verif.Reader

/-- `struct ControlStack` (lines 358-363); the last element of the `Vec` comes first. -/
structure ControlStack where
  frames : List FrameKind
  top : Option FrameKind
  deriving DecidableEq, Repr

/-- `ControlStack::push` (lines 380-384). -/
def ControlStack.push (s : ControlStack) (k : FrameKind) : ControlStack :=
  match s.top with
  | some old => ⟨old :: s.frames, some k⟩
  | none => ⟨s.frames, some k⟩

/-- `ControlStack::pop` (lines 387-389), the new stack. -/
def ControlStack.pop (s : ControlStack) : ControlStack := ⟨s.frames.tail, s.frames.head?⟩

/-- The effect of the `FrameStackAdapter` visitor (lines 1000-1063) on the stack. -/
def ControlStack.visit (s : ControlStack) : Operator → ControlStack
  | .block .block _ => s.push .block
  | .block .loop _ => s.push .loop
  | .block .if_ _ => s.push .if_
  | .else_ => s.pop.push .else_
  | .block .try_ _ => s.push .legacyTry
  | .catch_ _ => s.pop.push .legacyCatch
  | .catchAll => s.pop.push .legacyCatchAll
  | .tryTable .. => s.push .tryTable
  | .delegate _ => s.pop
  | .end_ => s.pop
  | _ => s

/-- `struct OperatorsReader` (lines 426-429). -/
structure OperatorsReader where
  reader : Reader
  stack : ControlStack
  deriving DecidableEq, Repr

/-- `OperatorsReader::new` (lines 448-466). -/
def OperatorsReader.new (r : Reader) : OperatorsReader := ⟨r, ⟨[], some .block⟩⟩

/-- `OperatorsReader::read` (lines 504-506 and 554-562). -/
def OperatorsReader.read (f : Features) (s : OperatorsReader) :
    Except Err (Operator × OperatorsReader) :=
  match visitOperator f s.stack.top s.reader with
  | .error e => .error e
  | .ok (op, r) => .ok (op, ⟨r, s.stack.visit op⟩)

/-- `OperatorsIterator::next` (lines 655-666) until it is exhausted or returns an error. Each
`read` that succeeds consumes at least one byte, so the number of bytes bounds the number of
steps. -/
def OperatorsReader.collectFrom (f : Features) : Nat → OperatorsReader →
    Except Err (List Operator × OperatorsReader)
  | 0, s => .ok ([], s)
  | n + 1, s =>
    if s.reader.eof then .ok ([], s)
    else match s.read f with
      | .error e => .error e
      | .ok (op, s') => match collectFrom f n s' with
        | .error e => .error e
        | .ok (ops, s'') => .ok (op :: ops, s'')

/-- `into_iter().collect()` on an `OperatorsReader`. -/
def OperatorsReader.collect (f : Features) (s : OperatorsReader) :
    Except Err (List Operator × OperatorsReader) :=
  collectFrom f s.reader.bytesRemaining s

/-- `OperatorsReader::finish` (lines 598-600) and `finish_expression` (binary_reader.rs lines
796-810). -/
def OperatorsReader.finish (s : OperatorsReader) : Except Err Unit :=
  if s.stack.top.isSome then
    .error (.msg "control frames remain at end of function body or expression"
      s.reader.originalPosition)
  else if ¬ s.reader.eof then
    .error (.msg "unexpected data at the end of operators" s.reader.originalPosition)
  else .ok ()

end Verif.Instr
