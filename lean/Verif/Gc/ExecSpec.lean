import Verif.Gc.StackSpec
/-! What the functions that allocate the stack do: the part of the semantics of WebAssembly that
their code needs (values are `i32`, blocks are `if` without `else`, functions that are called have
the type of `cabi_realloc`). -/
namespace Verif.Gc.Spec
open Verif.Reader Verif.Instr Verif.Items Verif.Reenc Verif.Reenc.Spec

/-- Globals and the size of the memory in pages. -/
structure World where
  globals : BitVec 32 → BitVec 32
  pages : Nat

def World.set (w : World) (g v : BitVec 32) : World :=
  { w with globals := fun i => if i = g then v else w.globals i }

/-- What is outside: functions that can be called (`none` is a trap), and whether the memory can
grow. -/
structure Host where
  call : BitVec 32 → World → BitVec 32 → BitVec 32 → BitVec 32 → BitVec 32 →
    Option (World × BitVec 32)
  canGrow : Nat → BitVec 32 → Bool

/-- The stack has its top first. -/
structure Frame where
  world : World
  stack : List (BitVec 32) := []
  locals : List (BitVec 32) := []

inductive Step where
  | next (fr : Frame)
  | skip (fr : Frame)
  | trap
  | stuck

inductive Outcome where
  | done (fr : Frame)
  | trap
  | stuck

def Frame.push (fr : Frame) (v : BitVec 32) : Step := .next { fr with stack := v :: fr.stack }

def truth (b : Bool) : BitVec 32 := if b then 1 else 0

/-- Operators with two operands. -/
def binary : Plain → Option (BitVec 32 → BitVec 32 → BitVec 32)
  | .i32Eq => some fun a b => truth (a = b)
  | .i32Ne => some fun a b => truth (a ≠ b)
  | .i32Add => some (· + ·)
  | .i32Shl => some fun a b => a <<< (b.toNat % 32)
  | _ => none

def stepPlain (fr : Frame) : Plain → Step
  | .unreachable => .trap
  | o => match binary o, fr.stack with
    | some g, b :: a :: s => .next { fr with stack := g a b :: s }
    | _, _ => .stuck

def stepIdx (h : Host) (fr : Frame) (i : BitVec 32) : Idx → Step
  | .localGet => match fr.locals[i.toNat]? with
    | some v => fr.push v
    | none => .stuck
  | .localTee => match fr.stack with
    | v :: _ =>
      if i.toNat < fr.locals.length then .next { fr with locals := fr.locals.set i.toNat v }
      else .stuck
    | _ => .stuck
  | .globalGet => fr.push (fr.world.globals i)
  | .globalSet => match fr.stack with
    | v :: s => .next { fr with stack := s, world := fr.world.set i v }
    | _ => .stuck
  | .call => match fr.stack with
    | d :: c :: b :: a :: s => match h.call i fr.world a b c d with
      | some (w, v) => .next { fr with stack := v :: s, world := w }
      | none => .trap
    | _ => .stuck
  | _ => .stuck

def step (h : Host) (fr : Frame) : Operator → Step
  | .i32Const v => fr.push v
  | .plain o => stepPlain fr o
  | .idx o i => stepIdx h fr i o
  | .block .if_ _ => match fr.stack with
    | c :: s => if c = 0 then .skip { fr with stack := s } else .next { fr with stack := s }
    | _ => .stuck
  | .end_ => .next fr
  | .memoryGrow _ => match fr.stack with
    | n :: s =>
      if h.canGrow fr.world.pages n then
        .next { fr with stack := BitVec.ofNat 32 fr.world.pages :: s
                        world := { fr.world with pages := fr.world.pages + n.toNat } }
      else .next { fr with stack := -1 :: s }
    | _ => .stuck
  | _ => .stuck

/-- How deep in the skipped block we are afterwards; `none` behind its end. -/
def skipped (d : Nat) : Operator → Option Nat
  | .block _ _ => some (d + 1)
  | .end_ => match d with
    | 0 => none
    | d + 1 => some d
  | _ => some d

/-- Runs the operators; the number is the depth in a block that is skipped. -/
def exec (h : Host) : Option Nat → List Operator → Frame → Outcome
  | _, [], fr => .done fr
  | some d, op :: ops, fr => exec h (skipped d op) ops fr
  | none, op :: ops, fr => match step h fr op with
    | .next fr => exec h none ops fr
    | .skip fr => exec h (some 0) ops fr
    | .trap => .trap
    | .stuck => .stuck

/-- Whoever reads the body gets these declarations of locals, and operators that do this. -/
def Does (f : Instr.Features) (b : List UInt8) (locals : List (BitVec 32 × Types.ValType))
    (P : List Operator → Prop) : Prop :=
  ∀ q : Reader, q.rest = b → ∃ ops s, localsOf q = .ok locals ∧
    operatorsOf f q = .ok (ops, s) ∧ s.finish = .ok () ∧ P ops

/-- The stack of 64 KiB is got from `realloc(0, 0, 8, 65536)`, and the stack pointer is its end. -/
def stackEffect (h : Host) (realloc sp : BitVec 32) (w : World) : Option World :=
  match h.call realloc w 0 0 8 65536 with
  | some (w, p) => some (w.set sp (p + 65536))
  | none => none

def outcome : Option World → Outcome
  | some w => .done ⟨w, [], []⟩
  | none => .trap

/-- With a global for the state nothing is done unless it is 0; it is 1 during the allocation and
2 afterwards. -/
def lazyEffect (h : Host) (realloc sp st : BitVec 32) (w : World) : Option World :=
  if w.globals st = 0 then (stackEffect h realloc sp (w.set st 1)).map (·.set st 2) else some w

end Verif.Gc.Spec
