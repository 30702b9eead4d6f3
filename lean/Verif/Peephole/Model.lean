/-
The rewrite rules of the peephole mutator of `wasm-mutate`
(crates/wasm-mutate/src/mutators/peephole/rules.rs) and how expressions are written back as
instructions (peephole/eggsy/encoder/expr2wasm.rs).

The operators that rules mention are modelled one by one; all others, like `local.get`, loads,
divisions, calls or `memory.grow`, are `Lang.other k` with a number `k`.
-/
namespace Verif.Peephole

inductive ITy where
  | i32
  | i64
  deriving DecidableEq, Repr

def ITy.bits : ITy → Nat
  | .i32 => 32
  | .i64 => 64

inductive FTy where
  | f32
  | f64
  deriving DecidableEq, Repr

def FTy.bits : FTy → Nat
  | .f32 => 32
  | .f64 => 64

/-- `PrimitiveTypeInfo` (crates/wasm-mutate/src/module.rs 4-14); `Empty` is the empty list of types
here, vectors and references are `other`. -/
inductive Ty where
  | i (t : ITy)
  | f (t : FTy)
  | other (k : Nat)
  deriving DecidableEq, Repr

inductive IBin where
  | add | sub | mul | and | or | xor | shl | shrU | shrS
  deriving DecidableEq, Repr

inductive FBin where
  | add | mul
  deriving DecidableEq, Repr

/-- The operators of `enum Lang` (peephole/eggsy/lang.rs 275-1013) without their children. -/
inductive Lang where
  | iconst (t : ITy) (v : BitVec t.bits)
  | fconst (t : FTy) (b : BitVec t.bits)
  | ibin (t : ITy) (o : IBin)
  | fbin (t : FTy) (o : FBin)
  | eq (t : ITy)
  | eqz (t : ITy)
  | select
  | drop
  | nop
  | container
  | rand (t : ITy)
  | unfold (t : ITy)
  | useGlobal (t : Ty)
  | other (k : Nat)

/-- `RecExpr<Lang>` and, with variables, `egg::Pattern<Lang>`. Sharing in a `RecExpr` is ignored: it
is written back as a tree (expr2wasm.rs 81-93). -/
inductive Term (V : Type) where
  | var (v : V)
  | node (o : Lang) (args : List (Term V))

abbrev Expr := Term Empty

mutual
/-- The instance of a pattern: what `Subst` stands for in `egg`. -/
def Term.subst {V W : Type} (σ : V → Term W) : Term V → Term W
  | .var v => σ v
  | .node o args => .node o (Term.substArgs σ args)
def Term.substArgs {V W : Type} (σ : V → Term W) : List (Term V) → List (Term W)
  | [] => []
  | a :: as => a.subst σ :: Term.substArgs σ as
end

/-! ## The rules -/

/-- The variables of the rules. -/
inductive Var where
  | x | y | z
  deriving DecidableEq, Repr

/-- `enum Condition` (rules.rs 680-685). -/
inductive Cond where
  | type (v : Var) (t : Ty)
  | const (v : Var)
  | bool (b : Bool)

/-- `Rewrite::new` with a name, a pattern to search for and one to insert, and the conditions of a
`ConditionalApplier` (rules.rs 650-676). -/
structure Rule where
  name : String
  lhs : Term Var
  rhs : Term Var
  conds : List Cond

/-- `add_rewrite` (rules.rs 638-677). -/
def rewrite (name : String) (lhs rhs : Term Var) (conds : List Cond := []) : List Rule :=
  [⟨name, lhs, rhs, conds⟩]

/-- `add_bidirectional_rewrite` (rules.rs 626-636). -/
def rewriteBoth (name : String) (lhs rhs : Term Var) (conds : List Cond := []) : List Rule :=
  [⟨name, lhs, rhs, conds⟩, ⟨name ++ "-rev", rhs, lhs, conds⟩]

def ITy.name : ITy → String
  | .i32 => "i32"
  | .i64 => "i64"

def FTy.name : FTy → String
  | .f32 => "f32"
  | .f64 => "f64"

def vx : Term Var := .var .x
def vy : Term Var := .var .y
def vz : Term Var := .var .z

def ic {V : Type} (t : ITy) (v : Int) : Term V := .node (.iconst t (BitVec.ofInt t.bits v)) []
def ib {V : Type} (t : ITy) (o : IBin) (a b : Term V) : Term V := .node (.ibin t o) [a, b]
def ieq {V : Type} (t : ITy) (a b : Term V) : Term V := .node (.eq t) [a, b]
def ieqz {V : Type} (t : ITy) (a : Term V) : Term V := .node (.eqz t) [a]
def fb {V : Type} (t : FTy) (o : FBin) (a b : Term V) : Term V := .node (.fbin t o) [a, b]
def sel {V : Type} (a b c : Term V) : Term V := .node .select [a, b, c]

/-- The bits of 1.0. -/
def fone : (t : FTy) → BitVec t.bits
  | .f32 => 0x3f800000#32
  | .f64 => 0x3ff0000000000000#64

/-- `f32.const.1,0` and `f64.const.1,0`. -/
def fc1 {V : Type} (t : FTy) : Term V := .node (.fconst t (fone t)) []
/-- `f32.const.0,0` and `f64.const.0,0`. -/
def fc0 {V : Type} (t : FTy) : Term V := .node (.fconst t 0) []

/-- The identities on integers in the mode that reduces (rules.rs 36-62). -/
def reduceIdentities (t : ITy) : List Rule :=
  rewrite (t.name ++ ".or--1") (ib t .or vx (ic t (-1))) (ic t (-1)) ++
  rewrite (t.name ++ ".or-x-x") (ib t .or vx vx) vx ++
  rewrite (t.name ++ ".and-x-x") (ib t .and vx vx) vx ++
  rewrite (t.name ++ ".sub-0") (ib t .sub vx (ic t 0)) vx ++
  rewrite (t.name ++ ".mul-x-1") (ib t .mul vx (ic t 1)) vx ++
  rewrite (t.name ++ ".add-x-0") (ib t .add vx (ic t 0)) vx ++
  rewrite (t.name ++ ".xor-x-0") (ib t .xor vx (ic t 0)) vx ++
  rewrite (t.name ++ ".eq-x-0") (ieq t vx (ic t 0)) (ieqz t vx) ++
  rewrite (t.name ++ ".shl-by-0") (ib t .shl vx (ic t 0)) vx ++
  rewrite (t.name ++ ".shr_u-by-0") (ib t .shrU vx (ic t 0)) vx ++
  rewrite (t.name ++ ".shr_s-by-0") (ib t .shrS vx (ic t 0)) vx

/-- The identities on integers otherwise (rules.rs 64-198). -/
def identities (t : ITy) : List Rule :=
  rewrite (t.name ++ ".or--1") (ib t .or vx (ic t (-1))) (ic t (-1)) ++
  rewriteBoth (t.name ++ ".or-x-x") (ib t .or vx vx) vx [.type .x (.i t)] ++
  rewriteBoth (t.name ++ ".and-x-x") (ib t .and vx vx) vx [.type .x (.i t)] ++
  rewriteBoth (t.name ++ ".sub-0") (ib t .sub vx (ic t 0)) vx [.type .x (.i t)] ++
  rewriteBoth (t.name ++ ".mul-x-1") vx (ib t .mul vx (ic t 1)) [.type .x (.i t)] ++
  rewriteBoth (t.name ++ ".add-x-0") vx (ib t .add vx (ic t 0)) [.type .x (.i t)] ++
  rewriteBoth (t.name ++ ".xor-x-0") vx (ib t .xor vx (ic t 0)) [.type .x (.i t)] ++
  rewriteBoth (t.name ++ ".eq-x-0") (ieq t vx (ic t 0)) (ieqz t vx) [.type .x (.i t)] ++
  rewriteBoth (t.name ++ ".shl-by-0") (ib t .shl vx (ic t 0)) vx [.type .x (.i t)] ++
  rewriteBoth (t.name ++ ".shr_u-by-0") (ib t .shrU vx (ic t 0)) vx [.type .x (.i t)] ++
  rewriteBoth (t.name ++ ".shr_s-by-0") (ib t .shrS vx (ic t 0)) vx [.type .x (.i t)]

/-- The name of the rules for adding zero: that of the one for `f32` is written with a dash
(rules.rs 51-52, 134-143). -/
def addZeroName : FTy → String
  | .f32 => "f32-add-x-0"
  | .f64 => "f64.add-x-0"

/-- The identities on floats (rules.rs 47-48, 51-52; 113-122, 134-143). -/
def floatIdentities (reduce : Bool) (t : FTy) : List Rule :=
  if reduce then
    rewrite (t.name ++ ".mul-x-1") (fb t .mul vx (fc1 t)) vx ++
    rewrite (addZeroName t) (fb t .add vx (fc0 t)) vx
  else
    rewriteBoth (t.name ++ ".mul-x-1") vx (fb t .mul vx (fc1 t)) [.type .x (.f t)] ++
    rewriteBoth (addZeroName t) vx (fb t .add vx (fc0 t)) [.type .x (.f t)]

/-- The rules on `select` with two equal branches (rules.rs 42, 89). -/
def selectSame : List Rule := rewrite "select-same-branches" (sel vy vy vx) vy

/-- Commutativity and associativity (rules.rs 201-285). -/
def algebra (t : ITy) : List Rule :=
  rewriteBoth (t.name ++ ".add-commutes") (ib t .add vx vy) (ib t .add vy vx) ++
  rewriteBoth (t.name ++ ".mul-commutes") (ib t .mul vx vy) (ib t .mul vy vx) ++
  rewriteBoth (t.name ++ ".and-commutes") (ib t .and vx vy) (ib t .and vy vx) ++
  rewriteBoth (t.name ++ ".or-commutes") (ib t .or vx vy) (ib t .or vy vx) ++
  rewriteBoth (t.name ++ ".xor-commutes") (ib t .xor vx vy) (ib t .xor vy vx) ++
  rewriteBoth (t.name ++ ".eq-commutes") (ieq t vx vy) (ieq t vy vx) ++
  rewriteBoth (t.name ++ ".mul-associates") (ib t .mul vx (ib t .mul vy vz)) (ib t .mul (ib t .mul vx vy) vz) ++
  rewriteBoth (t.name ++ ".add-associates") (ib t .add vx (ib t .add vy vz)) (ib t .add (ib t .add vx vy) vz) ++
  rewriteBoth (t.name ++ ".and-associates") (ib t .and vx (ib t .and vy vz)) (ib t .and (ib t .and vx vy) vz) ++
  rewriteBoth (t.name ++ ".or-associates") (ib t .or vx (ib t .or vy vz)) (ib t .or (ib t .or vx vy) vz) ++
  rewriteBoth (t.name ++ ".xor-associates") (ib t .xor vx (ib t .xor vy vz)) (ib t .xor (ib t .xor vx vy) vz) ++
  rewriteBoth (t.name ++ ".eq-associates") (ieq t vx (ieq t vy vz)) (ieq t (ieq t vx vy) vz)

/-- Commutativity of floating point operators (rules.rs 208-209, 213-214). -/
def floatCommutes (t : FTy) : List Rule :=
  rewriteBoth (t.name ++ ".add-commutes") (fb t .add vx vy) (fb t .add vy vx) ++
  rewriteBoth (t.name ++ ".mul-commutes") (fb t .mul vx vy) (fb t .mul vy vx)

/-- Multiplication by powers of two (rules.rs 287-295) and `x + x` (rules.rs 302-306). -/
def strength (t : ITy) : List Rule :=
  rewriteBoth (t.name ++ ".mul-by-2") (ib t .shl vx (ic t 1)) (ib t .mul vx (ic t 2)) ++
  rewriteBoth (t.name ++ ".mul-by-4") (ib t .shl vx (ic t 2)) (ib t .mul vx (ic t 4)) ++
  rewriteBoth (t.name ++ ".mul-by-8") (ib t .shl vx (ic t 3)) (ib t .mul vx (ic t 8)) ++
  rewriteBoth (t.name ++ ".add-x-x") (ib t .add vx vx) (ib t .mul vx (ic t 2))

/-- `select` with the condition inverted (rules.rs 297-300). -/
def selectInvert : List Rule :=
  rewriteBoth "select-invert" (sel vx vy vz) (sel vy vx (ieqz .i32 vz))

def dropRand {V : Type} (t : ITy) : Term V := .node .drop [.node (.rand t) []]

/-- Expressions that leave the stack as it was (rules.rs 332-340). -/
def containers : List Rule :=
  rewrite "container-nop-x" vx (.node .container [.node .nop [], vx]) ++
  rewrite "container-x-nop" vx (.node .container [vx, .node .nop []]) ++
  rewrite "container-drop-i32.rand-x" vx (.node .container [dropRand .i32, vx]) ++
  rewrite "container-drop-i64.rand-x" vx (.node .container [dropRand .i64, vx]) ++
  rewrite "container-x-drop-i32.rand" vx (.node .container [vx, dropRand .i32]) ++
  rewrite "container-x-drop-i64.rand" vx (.node .container [vx, dropRand .i64])

/-- Spilling to a new global (rules.rs 342-369). -/
def spill (globals : Nat) (name : String) (t : Ty) : List Rule :=
  rewrite (name ++ ".use_of_global") vx (.node (.useGlobal t) [vx]) [.type .x t, .bool (globals < 100000)]

/-- Unfolding of constants (rules.rs 371-385). -/
def unfolds (t : ITy) : List Rule :=
  rewrite (t.name ++ ".unfold") vx (.node (.unfold t) [vx]) [.const .x, .type .x (.i t)]

/-- `get_rules` (rules.rs 19-610) when semantics are preserved, in a module with this many globals;
in a different order, which does not matter. -/
def getRules (reduce : Bool) (globals : Nat) : List Rule :=
  (if reduce then reduceIdentities .i32 ++ reduceIdentities .i64 else identities .i32 ++ identities .i64) ++
  selectSame ++
  floatIdentities reduce .f32 ++ floatIdentities reduce .f64 ++
  algebra .i32 ++ algebra .i64 ++
  floatCommutes .f32 ++ floatCommutes .f64 ++
  if reduce then [] else
    strength .i32 ++ strength .i64 ++ selectInvert ++ containers ++
    spill globals "i32" (.i .i32) ++ spill globals "i64" (.i .i64) ++
    spill globals "f32" (.f .f32) ++ spill globals "f64" (.f .f64) ++
    unfolds .i32 ++ unfolds .i64

/-! ## Writing expressions -/

/-- The instructions that are written; `gset` and `gget` are `global.set` and `global.get` of the
globals that the mutator adds. -/
inductive Instr where
  | op (o : Lang)
  | gset (n : Nat)
  | gget (n : Nat)

/-- The random numbers that are drawn, and `global_idx` without the globals of the module
(expr2wasm.rs 74-77). -/
structure EncSt where
  rng : Nat → BitVec 64
  drawn : Nat
  next : Nat

/-- `config.rng().random()` for an integer type. -/
def EncSt.draw (s : EncSt) (t : ITy) : BitVec t.bits × EncSt :=
  ((s.rng s.drawn).setWidth t.bits, { s with drawn := s.drawn + 1 })

/-- What is written for an operator after its children (expr2wasm.rs 95-384). -/
def exitInstrs (o : Lang) (s : EncSt) : List Instr × EncSt :=
  match o with
  | .rand t => ([.op (.iconst t (s.draw t).1)], (s.draw t).2)
  | .container => ([], s)
  | .useGlobal _ => ([.gset s.next, .gget s.next], { s with next := s.next + 1 })
  | o => ([.op o], s)

/-- The constant in a node, if it has the type. -/
def constOf (t : ITy) : List Expr → Option (BitVec t.bits)
  | [.node (.iconst t' v) []] => if h : t' = t then some (h ▸ v) else none
  | _ => none

mutual
/-- `expr2wasm` (expr2wasm.rs 37-677): children first, in order. `none` is the error for an unfolded
expression that is not a constant (expr2wasm.rs 125-163). -/
def encode : Expr → EncSt → Option (List Instr × EncSt)
  | .var v, _ => nomatch v
  | .node (.unfold t) args, s =>
    match constOf t args with
    | some v =>
      let (r, s) := s.draw t
      some ([.op (.iconst t r), .op (.iconst t (v - r)), .op (.ibin t .add)], s)
    | none => none
  | .node o args, s =>
    match encodeArgs args s with
    | some (is, s) => some (is ++ (exitInstrs o s).1, (exitInstrs o s).2)
    | none => none
def encodeArgs : List Expr → EncSt → Option (List Instr × EncSt)
  | [], s => some ([], s)
  | a :: as, s =>
    match encode a s with
    | some (is, s) =>
      match encodeArgs as s with
      | some (js, s) => some (is ++ js, s)
      | none => none
    | none => none
end

end Verif.Peephole
