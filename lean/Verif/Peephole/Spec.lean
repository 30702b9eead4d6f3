import Verif.Float.Spec
import Verif.Peephole.Model
/-
What expressions of the peephole mutator mean: the semantics of WebAssembly for the operators that
rules mention, floating point arithmetic after IEEE 754, and anything at all for the others.
-/
namespace Verif.Peephole.Spec

open Verif.Float.Spec

/-! ## Floating point arithmetic -/

def fmt : FTy → Float.Fmt
  | .f32 => Float.f32
  | .f64 => Float.f64

/-- Exponent and fraction. -/
def mag (t : FTy) (a : BitVec t.bits) : Nat := a.toNat % 2 ^ (t.bits - 1)

def negative (t : FTy) (a : BitVec t.bits) : Bool := a.msb

def isNan (t : FTy) (a : BitVec t.bits) : Prop := infinity (fmt t) < mag t a

instance {t : FTy} {a : BitVec t.bits} : Decidable (isNan t a) := inferInstanceAs (Decidable (_ < _))

def isInf (t : FTy) (a : BitVec t.bits) : Prop := mag t a = infinity (fmt t)

instance {t : FTy} {a : BitVec t.bits} : Decidable (isInf t a) := inferInstanceAs (Decidable (_ = _))

/-- The number with this sign, exponent and fraction. -/
def withSign (t : FTy) (neg : Bool) (m : Nat) : BitVec t.bits :=
  BitVec.ofNat t.bits (signBit (fmt t) neg + m)

/-- The magnitude of a NaN that has only the highest bit of the fraction set. -/
def canonicalMag (t : FTy) : Nat := infinity (fmt t) + 2 ^ (fracBits (fmt t) - 1)

def isCanonical (t : FTy) (a : BitVec t.bits) : Prop := mag t a = canonicalMag t

instance {t : FTy} {a : BitVec t.bits} : Decidable (isCanonical t a) := inferInstanceAs (Decidable (_ = _))

/-- A NaN whose highest bit of the fraction is set. -/
def isArithmetic (t : FTy) (a : BitVec t.bits) : Prop := canonicalMag t ≤ mag t a

/-- `nans_N{…}` of the specification: what an operator may return as NaN. -/
def NanResult (t : FTy) (a b r : BitVec t.bits) : Prop :=
  if (isNan t a → isCanonical t a) ∧ (isNan t b → isCanonical t b) then isCanonical t r
  else isArithmetic t r

/-- The value of a number that is not infinite. -/
def value (t : FTy) (a : BitVec t.bits) : ℚ :=
  if negative t a then -magnitude (fmt t) (mag t a) else magnitude (fmt t) (mag t a)

/-- The number a magnitude is rounded to, or infinity. -/
def RoundsTo (t : FTy) (neg : Bool) (v : ℚ) (r : BitVec t.bits) : Prop :=
  ∃ m, Rounds (fmt t) v m ∧ r = withSign t neg (min m (infinity (fmt t)))

/-- `fmul_N`. -/
def FMul (t : FTy) (a b r : BitVec t.bits) : Prop :=
  let neg := negative t a != negative t b
  if isNan t a ∨ isNan t b then NanResult t a b r
  else if isInf t a ∨ isInf t b then
    if mag t a = 0 ∨ mag t b = 0 then isCanonical t r
    else r = withSign t neg (infinity (fmt t))
  else RoundsTo t neg (magnitude (fmt t) (mag t a) * magnitude (fmt t) (mag t b)) r

/-- `fadd_N`. -/
def FAdd (t : FTy) (a b r : BitVec t.bits) : Prop :=
  if isNan t a ∨ isNan t b then NanResult t a b r
  else if isInf t a then
    if isInf t b ∧ negative t a ≠ negative t b then isCanonical t r else r = a
  else if isInf t b then r = b
  else
    let s := value t a + value t b
    if s = 0 then r = withSign t (negative t a && negative t b) 0
    else RoundsTo t (decide (s < 0)) |s| r

/-! ## Values and operators -/

inductive Val where
  | i (t : ITy) (v : BitVec t.bits)
  | f (t : FTy) (b : BitVec t.bits)
  | other (k : Nat) (n : Nat)

def Val.ty : Val → Ty
  | .i t _ => .i t
  | .f t _ => .f t
  | .other k _ => .other k

/-- What running an expression results in: values and a state of the world, or a trap; `stuck` if it
is not valid. -/
inductive Out (W : Type) where
  | ok (vs : List Val) (w : W)
  | trap
  | stuck

/-- An engine and a module: the types of the operators that are not modelled and what they do to the
state of the world (locals, globals, memories, tables), and arithmetic on floats. -/
structure Engine (W : Type) where
  sig : Nat → Option (List Ty × List Ty)
  run : Nat → List Val → W → Out W
  fbin : (t : FTy) → FBin → BitVec t.bits → BitVec t.bits → BitVec t.bits

/-- The other operators are type safe. -/
def Engine.Safe {W : Type} (E : Engine W) : Prop :=
  ∀ k ins outs, E.sig k = some (ins, outs) → ∀ args, args.map Val.ty = ins → ∀ w,
    E.run k args w = .trap ∨ ∃ vs w', E.run k args w = .ok vs w' ∧ vs.map Val.ty = outs

/-- The other operators do not change the state of the world. -/
def Engine.Pure {W : Type} (E : Engine W) : Prop :=
  ∀ k ins outs, E.sig k = some (ins, outs) → ∀ args w vs w', E.run k args w = .ok vs w' → w' = w

/-- The other operators do not trap. -/
def Engine.Total {W : Type} (E : Engine W) : Prop :=
  ∀ k ins outs, E.sig k = some (ins, outs) → ∀ args w, E.run k args w ≠ .trap

/-- Arithmetic on floats follows IEEE 754. -/
structure Engine.Ieee {W : Type} (E : Engine W) : Prop where
  add : ∀ t a b, FAdd t a b (E.fbin t .add a b)
  mul : ∀ t a b, FMul t a b (E.fbin t .mul a b)

/-- All NaNs that arithmetic returns are the same. -/
def Engine.OneNan {W : Type} (E : Engine W) : Prop :=
  ∀ t, ∃ n, ∀ o a b, isNan t (E.fbin t o a b) → E.fbin t o a b = n

/-- Integer operators; shifts are modulo the number of bits. -/
def ibin {n : Nat} : IBin → BitVec n → BitVec n → BitVec n
  | .add, a, b => a + b
  | .sub, a, b => a - b
  | .mul, a, b => a * b
  | .and, a, b => a &&& b
  | .or, a, b => a ||| b
  | .xor, a, b => a ^^^ b
  | .shl, a, b => a <<< (b.toNat % n)
  | .shrU, a, b => a >>> (b.toNat % n)
  | .shrS, a, b => a.sshiftRight (b.toNat % n)

def bool (b : Bool) : Val := .i .i32 (if b then 1 else 0)

/-- What an operator does with its operands. -/
def apply {W : Type} (E : Engine W) : Lang → List Val → W → Out W
  | .iconst t v, [], w => .ok [.i t v] w
  | .fconst t b, [], w => .ok [.f t b] w
  | .ibin t o, [.i t1 a, .i t2 b], w =>
    if h : t1 = t ∧ t2 = t then .ok [.i t (ibin o (h.1 ▸ a) (h.2 ▸ b))] w else .stuck
  | .fbin t o, [.f t1 a, .f t2 b], w =>
    if h : t1 = t ∧ t2 = t then .ok [.f t (E.fbin t o (h.1 ▸ a) (h.2 ▸ b))] w else .stuck
  | .eq t, [.i t1 a, .i t2 b], w =>
    if h : t1 = t ∧ t2 = t then .ok [bool ((h.1 ▸ a : BitVec t.bits) == h.2 ▸ b)] w else .stuck
  | .eqz t, [.i t1 a], w => if t1 = t then .ok [bool (a == 0)] w else .stuck
  | .select, [a, b, .i .i32 c], w => .ok [if c = 0 then b else a] w
  | .drop, [_], w => .ok [] w
  | .nop, [], w => .ok [] w
  | .container, vs, w => .ok vs w
  | .unfold _, [v], w => .ok [v] w
  | .useGlobal _, [v], w => .ok [v] w
  | .rand t, [], w => .ok [.i t 0] w
  | .other k, vs, w => E.run k vs w
  | _, _, _ => .stuck

mutual
/-- The meaning of an expression: children from left to right, then the operator. A random constant
stands for zero; `typeOf` allows it only where its value is dropped. -/
def eval {W : Type} (E : Engine W) : Expr → W → Out W
  | .var v, _ => nomatch v
  | .node o args, w =>
    match evalArgs E args w with
    | .ok vs w => apply E o vs w
    | .trap => .trap
    | .stuck => .stuck
def evalArgs {W : Type} (E : Engine W) : List Expr → W → Out W
  | [], w => .ok [] w
  | a :: as, w =>
    match eval E a w with
    | .ok vs w =>
      match evalArgs E as w with
      | .ok vs' w => .ok (vs ++ vs') w
      | .trap => .trap
      | .stuck => .stuck
    | .trap => .trap
    | .stuck => .stuck
end

/-! ## Types -/

def isRand : Expr → Bool
  | .node (.rand _) [] => true
  | _ => false

/-- The types of the results of an operator whose operands have these types; `none` if it is not
valid. -/
def result {W : Type} (E : Engine W) : Lang → List (List Ty) → Option (List Ty)
  | .iconst t _, [] => some [.i t]
  | .fconst t _, [] => some [.f t]
  | .ibin t _, [[a], [b]] => if a = .i t ∧ b = .i t then some [.i t] else none
  | .fbin t _, [[a], [b]] => if a = .f t ∧ b = .f t then some [.f t] else none
  | .eq t, [[a], [b]] => if a = .i t ∧ b = .i t then some [.i .i32] else none
  | .eqz t, [[a]] => if a = .i t then some [.i .i32] else none
  | .select, [[a], [b], [c]] => if a = b ∧ c = .i .i32 then some [a] else none
  | .drop, [[_]] => some []
  | .nop, [] => some []
  | .container, ts => some ts.flatten
  | .unfold t, [[a]] => if a = .i t then some [a] else none
  | .useGlobal t, [[a]] => if a = t then some [a] else none
  | .other k, ts =>
    match E.sig k with
    | some (ins, outs) => if ts = ins.map (fun t => [t]) then some outs else none
    | none => none
  | _, _ => none

mutual
/-- The types of the values of an expression. -/
def typeOf {W : Type} (E : Engine W) : Expr → Option (List Ty)
  | .var v => nomatch v
  | .node o args =>
    match o, args.map isRand with
    | .drop, [true] => some []
    | o, _ => (typesOf E args).bind (result E o)
def typesOf {W : Type} (E : Engine W) : List Expr → Option (List (List Ty))
  | [] => some []
  | a :: as => (typeOf E a).bind fun t => (typesOf E as).map (t :: ·)
end

/-- When the mutator applies a rule to the expressions that variables stand for: `Condition::check`
(rules.rs 687-714). -/
def Holds {W : Type} (E : Engine W) (σ : Var → Expr) : Cond → Prop
  | .type v t => typeOf E (σ v) = some [t]
  | .const v => (∃ t c, σ v = .node (.iconst t c) []) ∨ ∃ t c, σ v = .node (.fconst t c) []
  | .bool b => b = true

/-- The expressions that are in one class of the graph of `egg` after rules were applied to valid
expressions: the smallest congruence. -/
inductive Rewrites {W : Type} (E : Engine W) (R : Rule → Prop) : Expr → Expr → Prop where
  | rule {r : Rule} {σ : Var → Expr} : R r → (∀ c ∈ r.conds, Holds E σ c) →
      typeOf E (r.lhs.subst σ) ≠ none → Rewrites E R (r.lhs.subst σ) (r.rhs.subst σ)
  | refl (e : Expr) : Rewrites E R e e
  | symm {a b : Expr} : Rewrites E R a b → Rewrites E R b a
  | trans {a b c : Expr} : Rewrites E R a b → Rewrites E R b c → Rewrites E R a c
  | congr {o : Lang} {as bs : List Expr} : as.length = bs.length →
      (∀ p ∈ as.zip bs, Rewrites E R p.1 p.2) → Rewrites E R (.node o as) (.node o bs)

/-! ## Running instructions -/

/-- The stack, the top first, the state of the world, and the globals that the mutator added. -/
structure State (W : Type) where
  stack : List Val
  world : W
  spilled : Nat → Val

inductive Res (W : Type) where
  | done (s : State W)
  | trap
  | stuck

/-- How many operands an operator takes. -/
def arity {W : Type} (E : Engine W) : Lang → Nat
  | .ibin .. | .fbin .. | .eq _ => 2
  | .eqz _ | .drop => 1
  | .select => 3
  | .other k => match E.sig k with
    | some (ins, _) => ins.length
    | none => 0
  | _ => 0

def step {W : Type} (E : Engine W) : Instr → State W → Res W
  | .gset n, s =>
    match s.stack with
    | v :: vs => .done ⟨vs, s.world, fun i => if i = n then v else s.spilled i⟩
    | [] => .stuck
  | .gget n, s => .done { s with stack := s.spilled n :: s.stack }
  | .op o, s =>
    if s.stack.length < arity E o then .stuck else
      match apply E o (s.stack.take (arity E o)).reverse s.world with
      | .ok vs w => .done ⟨vs.reverse ++ s.stack.drop (arity E o), w, s.spilled⟩
      | .trap => .trap
      | .stuck => .stuck

def exec {W : Type} (E : Engine W) : List Instr → State W → Res W
  | [], s => .done s
  | i :: is, s =>
    match step E i s with
    | .done s => exec E is s
    | .trap => .trap
    | .stuck => .stuck

/-- Two runs cannot be told apart: both trap, or leave the same values on the stack and the world in
the same state. -/
inductive Same {W : Type} : Res W → Res W → Prop where
  | done {a b : State W} : a.stack = b.stack → a.world = b.world → Same (.done a) (.done b)
  | trap : Same .trap .trap

/-! ## Which rules are excluded -/

/-- Rules that are wrong. -/
def wrong : List String :=
  ["i32.eq-associates", "i32.eq-associates-rev",
   "f32-add-x-0", "f32-add-x-0-rev", "f64.add-x-0", "f64.add-x-0-rev",
   "f32.mul-x-1", "f32.mul-x-1-rev", "f64.mul-x-1", "f64.mul-x-1-rev"]

/-- Rules that leave out an operand. -/
def dropping : List String := ["i32.or--1", "i64.or--1", "select-same-branches"]

/-- Rules that hold if NaNs cannot be told apart. -/
def floating : List String :=
  ["f32.add-commutes", "f32.add-commutes-rev", "f64.add-commutes", "f64.add-commutes-rev",
   "f32.mul-commutes", "f32.mul-commutes-rev", "f64.mul-commutes", "f64.mul-commutes-rev"]

/-- Rules that evaluate operands in another order, or more or less often. -/
def reordering : List String :=
  dropping ++ floating ++
  ["i32.or-x-x", "i32.or-x-x-rev", "i64.or-x-x", "i64.or-x-x-rev",
   "i32.and-x-x", "i32.and-x-x-rev", "i64.and-x-x", "i64.and-x-x-rev",
   "i32.add-x-x", "i32.add-x-x-rev", "i64.add-x-x", "i64.add-x-x-rev",
   "i32.add-commutes", "i32.add-commutes-rev", "i64.add-commutes", "i64.add-commutes-rev",
   "i32.mul-commutes", "i32.mul-commutes-rev", "i64.mul-commutes", "i64.mul-commutes-rev",
   "i32.and-commutes", "i32.and-commutes-rev", "i64.and-commutes", "i64.and-commutes-rev",
   "i32.or-commutes", "i32.or-commutes-rev", "i64.or-commutes", "i64.or-commutes-rev",
   "i32.xor-commutes", "i32.xor-commutes-rev", "i64.xor-commutes", "i64.xor-commutes-rev",
   "i32.eq-commutes", "i32.eq-commutes-rev", "i64.eq-commutes", "i64.eq-commutes-rev",
   "select-invert", "select-invert-rev"]

/-- The rules that are right for an engine. -/
def Good {W : Type} (E : Engine W) (reduce : Bool) (globals : Nat) (r : Rule) : Prop :=
  r ∈ getRules reduce globals ∧ r.name ∉ wrong ∧ (r.name ∈ dropping → E.Total) ∧
    (r.name ∈ floating → E.Ieee ∧ E.OneNan) ∧ (r.name ∈ reordering → E.Pure)

end Verif.Peephole.Spec
