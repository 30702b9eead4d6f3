import Verif.Valid.ConstComplete
import Verif.Valid.CalmFlag
import Verif.Op.TypingProps
import Verif.Reenc.Const
/-! # Properties: constant expressions

C53. `check_const_expr` (`checkConstExpr`), used for the initial values of globals and tables, for
element expressions and for the offsets of segments, against the specification's constant
expressions (`Spec.ConstTy`). `Hist` says where the validator's list of types and the module come
from. -/
namespace Verif.Valid.Props
open Verif.Reader Verif.Items
open Verif.Types (AbsHeap HeapType RefType ValType)
open Verif.TypeList (TypeList)
open Verif.Op Verif.Op.Typing Verif.Op.View Verif.Valid.Spec
open Verif.Instr (Operator)
open Verif.Std (BSearch)

variable {f : Feats} {bs : BSearch} {T : TypeList} {s s' : ModuleState} {e : ConstExpr} {ty : V}

/-- **C53**, soundness. Whatever bytes an expression was read from: if it is accepted at a type,
its operators are a constant expression of this type, where functions in `ref.func` count as
declared. Nothing of the module changes except that these functions have been entered into the
function references; once the module is shared nothing changes at all. -/
theorem c53_sound (hcd : f.customDescriptors = false) (hh : Hist f T s.m) {r r' : Reader}
    (hr : readConstExpr f.reader.toFeatures r = .ok (e, r'))
    (h : checkConstExpr f bs T s e ty = .ok s') :
    ∃ os, ConstOps f.reader.toFeatures e os ∧ ConstTy (ctxOf (listOf T) s'.m) os ty ∧
      s' = { s with m := setRefs s.m s'.m.functionReferences } ∧
      (s.owned = true → ∀ i, i ∈ s'.m.functionReferences ↔
        i ∈ s.m.functionReferences ∨ Operator.idx .refFunc i ∈ os) ∧
      (s.owned = false → s' = s) := by
  obtain ⟨is, h1, -, -⟩ := Reenc.readConst_steps hr
  obtain ⟨os, q, h2, h3, -⟩ := h1.collect
  have ho : ConstOps f.reader.toFeatures e os := ⟨q, h2, h3⟩
  obtain ⟨h4, h5, -⟩ := const_sound hcd hh ho h
  exact ⟨os, ho, h4, h5.eq, h5.refs, h5.same⟩

/-- **C53**, completeness. With all features (but custom descriptors) every constant expression
of the type is accepted, where its own functions count as declared. When the module is shared
already, the expression must have no `ref.func`. -/
theorem c53_complete (hf : f.toFeatures = fullFeatures) (hx : f.extendedConst = true)
    (hh : Hist f T s.m) {os : List Operator} (ho : ConstOps f.reader.toFeatures e os)
    {rs : List (BitVec 32)}
    (hrs : ∀ i, i ∈ rs ↔ i ∈ s.m.functionReferences ∨ Operator.idx .refFunc i ∈ os)
    (hown : s.owned = true ∨ ∀ i, Operator.idx .refFunc i ∉ os) (hn : ∀ o ∈ os, NoExact o)
    (h : ConstTy (ctxOf (listOf T) (setRefs s.m rs)) os ty) :
    ∃ s', checkConstExpr f bs T s e ty = .ok s' := const_complete hf hx hh ho hrs hown hn h

/-- **C53**, the assertion. `assert!(!ops.uninserted_funcref)` holds whenever it is reached, if
the module is not shared (`add_global`, `add_table`, elements) or the type is an integer type
(offsets of data segments, which come after the code section): the flag is false. -/
theorem c53_assertion {r r' : Reader} (hr : readConstExpr f.reader.toFeatures r = .ok (e, r'))
    (ho : s.owned = true ∨ ty = .i32 ∨ ty = .i64) {u : Bool}
    (h : constFrom f bs T e.reader.bytesRemaining e.reader s false (newConstExpr ty) =
      .ok (s', u)) : u = false := Flag.flag_false hr ho h

/-! ## An example -/

namespace ConstSample
open Verif.Op.Props.Sample (state list reaches view mod)

def feats : Feats where
  toFeatures := fullFeatures
  multiMemory := true
  memory64 := true
  callIndirectOverlong := true
  compactImports := true
  mutableGlobal := true
  extendedConst := true
  customPageSizes := true

/-- `(type (struct (field (mut i32))))`, `(type (func (param i32) (result i32)))`, a function of
the second type and an imported `(global i32)`. -/
def st0 : ModuleState :=
  { ModuleState.new with
    m := { mod with functions := [1], globals := [⟨.i32, false, false⟩] }
    numImportedGlobals := 1 }

theorem hist : Hist feats state.types st0.m :=
  ⟨⟨_, _, state, 0, reaches, rfl, Op.Props.Sample.mod_types⟩, by decide +kernel, nofun⟩

/-- `global.get 0  i32.const 1  i32.add  struct.new 0  end`, followed by something else. -/
def input : Reader := Reader.new [0x23, 0x00, 0x41, 0x01, 0x6a, 0xfb, 0x00, 0x00, 0x0b, 0x17] 0

def expr : ConstExpr := ⟨⟨[0x23, 0x00, 0x41, 0x01, 0x6a, 0xfb, 0x00, 0x00, 0x0b], 0, 0⟩⟩

theorem read_expr : readConstExpr feats.reader.toFeatures input = .ok (expr, input.advance 9) := by
  decide +kernel

/-- Outcomes can be compared. -/
def okOf (x : X ModuleState) : Bool := match x with
  | .ok _ => true
  | .error _ => false

theorem ok_of {x : X ModuleState} (h : okOf x = true) : ∃ s, x = .ok s := by
  cases x with
  | ok s => exact ⟨s, rfl⟩
  | error e => cases h

/-- The hypotheses of `c53_sound` and `c53_assertion` are met. -/
example : ∃ os, ConstOps feats.reader.toFeatures expr os ∧
    ∃ m, ConstTy (ctxOf (listOf state.types) m) os (.ref ⟨false, .concrete 0⟩) := by
  obtain ⟨s', h⟩ := ok_of (x := checkConstExpr feats .linear state.types st0 expr
    (.ref ⟨false, .concrete 0⟩)) (by decide +kernel)
  obtain ⟨os, h1, h2, -⟩ := c53_sound rfl hist read_expr h
  exact ⟨os, h1, _, h2⟩

/-- `ref.func 0`. -/
def fexpr : ConstExpr := ⟨⟨[0xd2, 0x00, 0x0b], 0, 0⟩⟩

/-- The function becomes a declared one. -/
example : (checkConstExpr feats .linear state.types st0 fexpr (.ref ⟨false, .concrete 1⟩)).toOption.map
    (·.m.functionReferences) = some [0] := by decide +kernel

/-- It would be refused in a body before that. -/
example : (ctxOf (listOf state.types) st0.m).refs = [] := rfl

/-- The assertion: at a reference type in a shared module it would fail. -/
example : (checkConstExpr feats .linear state.types
    { st0 with owned := false, m := { st0.m with functionReferences := [0] } } fexpr
    (.ref ⟨false, .concrete 1⟩)).map (·.owned) = .error .panic := by decide +kernel

/-- At an integer type the expression is refused before that. -/
example : okOf (checkConstExpr feats .linear state.types { st0 with owned := false } fexpr .i32) =
    false := by decide +kernel

/-- A mutable global is not constant. -/
example : okOf (checkConstExpr feats .linear state.types
    { st0 with m := { st0.m with globals := [⟨.i32, true, false⟩] } } expr
    (.ref ⟨false, .concrete 0⟩)) = false := by decide +kernel

/-- The hypotheses of `c53_complete` are met. -/
example : ∃ s', checkConstExpr feats .linear state.types st0 fexpr (.ref ⟨false, .concrete 1⟩) =
    .ok s' := by
  refine c53_complete (os := [.idx .refFunc 0, .end_]) (rs := [0]) rfl rfl hist
    ⟨⟨⟨[0xd2, 0x00, 0x0b], 3, 0⟩, ⟨[], none⟩⟩, by decide +kernel, by decide +kernel⟩ ?_ (.inl rfl)
    ?_ ?_
  · intro i
    simp [st0, mod]
  · intro o ho
    simp only [List.mem_cons, List.not_mem_nil, or_false] at ho
    rcases ho with rfl | rfl <;> trivial
  · refine ⟨⟨[.idx .refFunc 0], [], rfl, ?_⟩, ?_⟩
    · exact .instr (.simple (ins := []) (outs := [.ref ⟨false, .concrete 1⟩])
        ⟨1, _, rfl, List.mem_singleton.2 rfl, ⟨1, rfl, rfl⟩, rfl, rfl⟩)
    · intro o ho
      simp only [List.mem_cons, List.not_mem_nil, or_false] at ho
      rcases ho with rfl | rfl
      · exact .inr (.inl (by simp [constIdx]))
      · exact .inl rfl

end ConstSample

end Verif.Valid.Props
