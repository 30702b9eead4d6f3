import Verif.Custom.Model
import Verif.Leb.Spec
import Mathlib.Data.List.Forall2
/-! The grammars of the custom sections, from the tool conventions (Coredump.md, Linking.md,
DynamicLinking.md) and the branch hinting proposal. A grammar relates values to byte strings. -/
namespace Verif.Custom
open Verif.Reader Verif.Leb Verif.Items

abbrev Grammar (α : Type) := α → List UInt8 → Prop

/-- `u32`: any LEB128 encoding. -/
def U32 : Grammar (BitVec 32) := fun v b => ULeb 32 b v.toNat

/-- `name`: the length, then UTF-8. -/
def Name : Grammar (List UInt8) := fun s b =>
  validUtf8 s ∧ ∃ n, ULeb 32 n s.length ∧ b = n ++ s

/-- `vec(G)`: the number of items, then the items. -/
def Vec (G : Grammar α) : Grammar (List α) := fun xs b =>
  ∃ (n : List UInt8) (bs : List (List UInt8)), b = n ++ bs.flatten ∧ ULeb 32 n xs.length ∧
    List.Forall₂ G xs bs

/-- The number with these little-endian digits. -/
def little : List UInt8 → Nat
  | [] => 0
  | b :: bs => b.toNat + 256 * little bs

/-! ### Core dumps -/

/-- `process-info ::= 0x0 executable-name:name`, `coremodule ::= 0x0 module-name:name`. -/
inductive IsModule : Grammar (List UInt8)
  | mk {s b} : Name s b → IsModule s (0 :: b)

/-- `value ::= 0x01 | 0x7F i32 | 0x7E i64 | 0x7D f32 | 0x7C f64`. -/
inductive IsValue : Grammar Value
  | missing : IsValue .missing [0x01]
  | i32 {v b} : SLeb 32 b v.toInt → IsValue (.i32 v) (0x7F :: b)
  | i64 {v b} : SLeb 64 b v.toInt → IsValue (.i64 v) (0x7E :: b)
  | f32 {v : BitVec 32} {b} : b.length = 4 → little b = v.toNat → IsValue (.f32 v) (0x7D :: b)
  | f64 {v : BitVec 64} {b} : b.length = 8 → little b = v.toNat → IsValue (.f64 v) (0x7C :: b)

/-- `coreinstance ::= 0x0 module:u32 memories:vec(u32) globals:vec(u32)`. -/
inductive IsInstance : Grammar Instance
  | mk {i b1 b2 b3} : U32 i.moduleIndex b1 → Vec U32 i.memories b2 → Vec U32 i.globals b3 →
      IsInstance i (0 :: b1 ++ b2 ++ b3)

/-- `frame ::= 0x0 instanceidx:u32 funcidx:u32 codeoffset:u32 locals:vec(value) stack:vec(value)`. -/
inductive IsFrame : Grammar Frame
  | mk {f b1 b2 b3 b4 b5} : U32 f.instanceidx b1 → U32 f.funcidx b2 → U32 f.codeoffset b3 →
      Vec IsValue f.locals b4 → Vec IsValue f.stack b5 →
      IsFrame f (0 :: b1 ++ b2 ++ b3 ++ b4 ++ b5)

/-- `corestack ::= 0x0 thread-name:name frames:vec(frame)`. -/
inductive IsStack : Grammar Stack
  | mk {s b1 b2} : Name s.name b1 → Vec IsFrame s.frames b2 → IsStack s (0 :: b1 ++ b2)

/-- A list of calls of a method of a builder, from the empty builder. -/
def calls (add : Enc.Builder → α → Option Enc.Builder) (xs : List α) : Option Enc.Builder :=
  xs.foldlM add {}

/-- Strings that Rust and the format can hold. -/
def Str (s : List UInt8) : Prop := validUtf8 s ∧ s.length < 2 ^ 32

/-- The lists fit into the format. -/
def Instance.Fits (i : Instance) : Prop := i.memories.length < 2 ^ 32 ∧ i.globals.length < 2 ^ 32
@[inherit_doc Instance.Fits]
def Frame.Fits (f : Frame) : Prop := f.locals.length < 2 ^ 32 ∧ f.stack.length < 2 ^ 32

end Verif.Custom
