import Verif.Float.Spec
/-
WebAssembly as far as the code that wasm-smith generates around trapping instructions and for
bounding execution needs it. This file is a specification: it follows the execution chapter of the
WebAssembly specification, not code of the repository. The instructions that the two passes do not
look at are parameters (`World`).
-/
namespace Verif.Smith

open Verif.Float (Fmt)

/-- Integer types. -/
inductive ITy where
  | i32
  | i64
  deriving DecidableEq, Repr

/-- The number of bits of an integer type. -/
def ITy.bits : ITy → Nat
  | .i32 => 32
  | .i64 => 64

/-- Float types. -/
inductive FTy where
  | f32
  | f64
  deriving DecidableEq, Repr

/-- The number of bits of a float type. -/
def FTy.bits : FTy → Nat
  | .f32 => 32
  | .f64 => 64

/-- The interchange format of a float type. -/
def FTy.fmt : FTy → Fmt
  | .f32 => Float.f32
  | .f64 => Float.f64

/-- Value types; which reference type does not matter here. -/
inductive Ty where
  | int (t : ITy)
  | flt (t : FTy)
  | v128
  | ref
  deriving DecidableEq, Repr

/-- Values. -/
inductive Val where
  | i32 (b : BitVec 32)
  | i64 (b : BitVec 64)
  | f32 (b : BitVec 32)
  | f64 (b : BitVec 64)
  | v128 (b : BitVec 128)
  | ref (r : Nat)
  deriving DecidableEq, Repr

/-- The type of a value. -/
def Val.ty : Val → Ty
  | .i32 _ => .int .i32
  | .i64 _ => .int .i64
  | .f32 _ => .flt .f32
  | .f64 _ => .flt .f64
  | .v128 _ => .v128
  | .ref _ => .ref

/-- The value of an integer type with these bits. -/
def Val.ofInt : (t : ITy) → BitVec t.bits → Val
  | .i32, b => .i32 b
  | .i64, b => .i64 b

/-- The bits of a value of an integer type. -/
def Val.int? : (t : ITy) → Val → Option (BitVec t.bits)
  | .i32, .i32 b => some b
  | .i64, .i64 b => some b
  | _, _ => none

/-- The value of a float type with these bits. -/
def Val.ofFlt : (t : FTy) → BitVec t.bits → Val
  | .f32, b => .f32 b
  | .f64, b => .f64 b

/-- The bits of a value of a float type. -/
def Val.flt? : (t : FTy) → Val → Option (BitVec t.bits)
  | .f32, .f32 b => some b
  | .f64, .f64 b => some b
  | _, _ => none

/-- The initial value of a local, and the value with all bits zero. Reference 0 is null. -/
def Val.zero : Ty → Val
  | .int .i32 => .i32 0
  | .int .i64 => .i64 0
  | .flt .f32 => .f32 0
  | .flt .f64 => .f64 0
  | .v128 => .v128 0
  | .ref => .ref 0

/-- Integer comparisons. -/
inductive IRel where
  | eq
  | ne
  | leU
  | leS
  | geU
  deriving DecidableEq, Repr

/-- What integer comparisons compute. -/
def IRel.eval {w : Nat} : IRel → BitVec w → BitVec w → Bool
  | .eq, a, b => a == b
  | .ne, a, b => a != b
  | .leU, a, b => a.ule b
  | .leS, a, b => a.sle b
  | .geU, a, b => b.ule a

/-- Integer operations that do not trap. -/
inductive IBin where
  | add
  | sub
  | mul
  | or
  deriving DecidableEq, Repr

/-- What these operations compute. -/
def IBin.eval {w : Nat} : IBin → BitVec w → BitVec w → BitVec w
  | .add, a, b => a + b
  | .sub, a, b => a - b
  | .mul, a, b => a * b
  | .or, a, b => a ||| b

/-- Division and remainder. -/
inductive IDiv where
  | divU
  | divS
  | remU
  | remS
  deriving DecidableEq, Repr

/-- Division and remainder on numbers: `none` is a trap. Division truncates, and traps as well if
the quotient is not a number of the type; the remainder has the sign of the dividend. -/
def IDiv.eval {w : Nat} : IDiv → BitVec w → BitVec w → Option (BitVec w)
  | .divU, a, b => if b.toNat = 0 then none else some (BitVec.ofNat w (a.toNat / b.toNat))
  | .remU, a, b => if b.toNat = 0 then none else some (BitVec.ofNat w (a.toNat % b.toNat))
  | .divS, a, b =>
    if b.toInt = 0 then none
    else if a.toInt.tdiv b.toInt = 2 ^ (w - 1) then none
    else some (BitVec.ofInt w (a.toInt.tdiv b.toInt))
  | .remS, a, b => if b.toInt = 0 then none else some (BitVec.ofInt w (a.toInt.tmod b.toInt))

/-- Float comparisons. -/
inductive FRel where
  | eq
  | ne
  | lt
  | gt
  deriving DecidableEq, Repr

/-- What a float stands for; the two zeros are the same number. -/
inductive FVal where
  | nan
  | inf (negative : Bool)
  | fin (q : ℚ)
  deriving DecidableEq

/-- The float with these bits. -/
def FVal.ofBits (F : Fmt) (b : Nat) : FVal :=
  let neg : Bool := 2 ^ (F.width - 1) ≤ b
  let m := b % 2 ^ (F.width - 1)
  if Float.Spec.infinity F < m then .nan
  else if m = Float.Spec.infinity F then .inf neg
  else .fin (if neg then -Float.Spec.magnitude F m else Float.Spec.magnitude F m)

/-- The order of floats; nothing is less than NaN or the other way round. -/
def FVal.lt : FVal → FVal → Bool
  | .nan, _ => false
  | _, .nan => false
  | .inf true, b => b != .inf true
  | .inf false, _ => false
  | .fin _, .inf n => !n
  | .fin p, .fin q => decide (p < q)

/-- Equality of floats; NaN is not equal to anything. -/
def FVal.eq (a b : FVal) : Bool := a != .nan && a == b

/-- What float comparisons compute. -/
def FRel.eval : FRel → FVal → FVal → Bool
  | .eq, a, b => a.eq b
  | .ne, a, b => !a.eq b
  | .lt, a, b => a.lt b
  | .gt, a, b => b.lt a

/-- A number without its fraction. -/
def truncate (q : ℚ) : Int := if q < 0 then q.ceil else q.floor

/-- Is this a number of the integer type? -/
def inRange (w : Nat) (signed : Bool) (i : Int) : Prop :=
  if signed then -2 ^ (w - 1) ≤ i ∧ i < 2 ^ (w - 1) else 0 ≤ i ∧ i < 2 ^ w

instance (w : Nat) (signed : Bool) (i : Int) : Decidable (inRange w signed i) := by
  unfold inRange; infer_instance

/-- Truncation to an integer type traps on what is not a number or is out of range. -/
def truncTo (w : Nat) (signed : Bool) : FVal → Option (BitVec w)
  | .fin q => if inRange w signed (truncate q) then some (BitVec.ofInt w (truncate q)) else none
  | _ => none

/-- Instructions that read memory. -/
inductive Load where
  | i32Load | i64Load | f32Load | f64Load
  | i32Load8S | i32Load8U | i32Load16S | i32Load16U
  | i64Load8S | i64Load8U | i64Load16S | i64Load16U | i64Load32S | i64Load32U
  | v128Load | v128Load8x8S | v128Load8x8U | v128Load16x4S | v128Load16x4U | v128Load32x2S | v128Load32x2U
  | v128Load8Splat | v128Load16Splat | v128Load32Splat | v128Load64Splat | v128Load32Zero | v128Load64Zero
  deriving DecidableEq, Repr

/-- The type of the value read. -/
def Load.result : Load → Ty
  | .i32Load | .i32Load8S | .i32Load8U | .i32Load16S | .i32Load16U => .int .i32
  | .i64Load | .i64Load8S | .i64Load8U | .i64Load16S | .i64Load16U | .i64Load32S | .i64Load32U => .int .i64
  | .f32Load => .flt .f32
  | .f64Load => .flt .f64
  | _ => .v128

/-- The number of bytes read. -/
def Load.bytes : Load → Nat
  | .i32Load8S | .i32Load8U | .i64Load8S | .i64Load8U | .v128Load8Splat => 1
  | .i32Load16S | .i32Load16U | .i64Load16S | .i64Load16U | .v128Load16Splat => 2
  | .i32Load | .f32Load | .i64Load32S | .i64Load32U | .v128Load32Splat | .v128Load32Zero => 4
  | .i64Load | .f64Load | .v128Load64Splat | .v128Load64Zero => 8
  | .v128Load8x8S | .v128Load8x8U | .v128Load16x4S | .v128Load16x4U | .v128Load32x2S | .v128Load32x2U => 8
  | .v128Load => 16

/-- Instructions that write memory. -/
inductive Store where
  | i32Store | i64Store | f32Store | f64Store
  | i32Store8 | i32Store16 | i64Store8 | i64Store16 | i64Store32
  | v128Store
  deriving DecidableEq, Repr

/-- The type of the value written. -/
def Store.operand : Store → Ty
  | .i32Store | .i32Store8 | .i32Store16 => .int .i32
  | .i64Store | .i64Store8 | .i64Store16 | .i64Store32 => .int .i64
  | .f32Store => .flt .f32
  | .f64Store => .flt .f64
  | .v128Store => .v128

/-- The number of bytes written. -/
def Store.bytes : Store → Nat
  | .i32Store8 | .i64Store8 => 1
  | .i32Store16 | .i64Store16 => 2
  | .i32Store | .f32Store | .i64Store32 => 4
  | .i64Store | .f64Store => 8
  | .v128Store => 16

/-- The immediate of loads and stores (without the alignment hint, which has no effect). -/
structure MemArg where
  memory : Nat
  offset : Nat
  deriving DecidableEq, Repr

/-- Instructions that process a number of elements that is on top of the stack. -/
inductive Bulk where
  | arrayCopy (dst src : Nat) | arrayFill (ty : Nat) | arrayInitData (ty data : Nat) | arrayInitElem (ty elem : Nat)
  | arrayNew (ty : Nat) | arrayNewDefault (ty : Nat) | arrayNewData (ty data : Nat) | arrayNewElem (ty elem : Nat)
  | tableInit (table elem : Nat) | tableFill (table : Nat) | tableCopy (dst src : Nat)
  | memoryInit (mem data : Nat) | memoryFill (mem : Nat) | memoryCopy (dst src : Nat)
  deriving DecidableEq, Repr

/-- Instructions without control flow. `prim` stands for all those that do not occur by name; they
neither use locals nor globals. -/
inductive Op (P : Type) where
  | unreachable
  | localGet (i : Nat)
  | localSet (i : Nat)
  | localTee (i : Nat)
  | globalGet (i : Nat)
  | globalSet (i : Nat)
  | const (v : Val)
  | eqz (t : ITy)
  | irel (t : ITy) (r : IRel)
  | ibin (t : ITy) (b : IBin)
  | idiv (t : ITy) (d : IDiv)
  | frel (t : FTy) (r : FRel)
  | veq (t : FTy)
  | bitselect
  | trunc (dst : ITy) (src : FTy) (signed : Bool)
  | wrap
  | select
  | memorySize (mem : Nat)
  | load (l : Load) (m : MemArg)
  | store (s : Store) (m : MemArg)
  | bulk (b : Bulk)
  | prim (p : P)
  deriving DecidableEq, Repr

/-- Instructions that transfer control. `brOn`, `callDyn`, `throw` stand for the instructions
(`br_on_null`, `br_on_cast`, `call_indirect`, `call_ref`, `throw_ref`, …) that decide on the operands. -/
inductive Ctl (P : Type) where
  | br (l : Nat)
  | brIf (l : Nat)
  | brTable (ls : List Nat) (d : Nat)
  | brOn (p : P) (l : Nat)
  | ret
  | call (f : Nat)
  | callDyn (p : P)
  | retCall (f : Nat)
  | retCallDyn (p : P)
  | throw (p : P)
  deriving DecidableEq, Repr

/-- Blocks that run once, blocks a branch to which starts them again, and blocks that catch exceptions. -/
inductive Kind (P : Type) where
  | block
  | loop
  | tryTable (handlers : P)
  deriving DecidableEq, Repr

/-- Instructions as they come one after another. The block types are the numbers of parameters and
results. -/
inductive Instr (P : Type) where
  | op (o : Op P)
  | ctl (c : Ctl P)
  | block (k : Kind P) (np nr : Nat)
  | if_ (np nr : Nat)
  | else_
  | end_
  deriving DecidableEq, Repr

/-- Structured code: each constructor is an instruction and what comes after it. -/
inductive Code (P : Type) where
  | nil
  | op (o : Op P) (k : Code P)
  | ctl (c : Ctl P) (k : Code P)
  | block (kind : Kind P) (np nr : Nat) (body k : Code P)
  | ifThen (np nr : Nat) (a k : Code P)
  | ifElse (np nr : Nat) (a b k : Code P)
  deriving DecidableEq, Repr

/-- Structured code as a sequence of instructions. -/
def Code.flatten {P : Type} : Code P → List (Instr P)
  | .nil => []
  | .op o k => .op o :: k.flatten
  | .ctl c k => .ctl c :: k.flatten
  | .block kind np nr body k => .block kind np nr :: (body.flatten ++ .end_ :: k.flatten)
  | .ifThen np nr a k => .if_ np nr :: (a.flatten ++ .end_ :: k.flatten)
  | .ifElse np nr a b k => .if_ np nr :: (a.flatten ++ .else_ :: (b.flatten ++ .end_ :: k.flatten))

/-- Reading instructions from the last to the first: the code after each of the open ends. The flag
says that an `else` comes next. -/
def parseStep {P : Type} (i : Instr P) (fs : Option (List (Code P × Bool))) : Option (List (Code P × Bool)) :=
  match i, fs with
  | .op o, some ((k, m) :: fs) => some ((.op o k, m) :: fs)
  | .ctl c, some ((k, m) :: fs) => some ((.ctl c k, m) :: fs)
  | .end_, some fs => some ((.nil, false) :: fs)
  | .else_, some ((b, false) :: fs) => some ((.nil, true) :: (b, false) :: fs)
  | .block kind np nr, some ((body, false) :: (k, m) :: fs) => some ((.block kind np nr body k, m) :: fs)
  | .if_ np nr, some ((a, false) :: (k, m) :: fs) => some ((.ifThen np nr a k, m) :: fs)
  | .if_ np nr, some ((a, true) :: (b, false) :: (k, m) :: fs) => some ((.ifElse np nr a b k, m) :: fs)
  | _, _ => none

/-- The structured code that a sequence of instructions is, if it is well nested. -/
def parse {P : Type} (is : List (Instr P)) : Option (Code P) :=
  match is.foldr parseStep (some [(.nil, false)]) with
  | some [(c, false)] => some c
  | _ => none

/-- What the instructions without a name do, how memory is read and written, and the embedder.
`S` is the part of the store that is not globals. `none` is a trap. -/
structure World (S P : Type) where
  /-- The size of a memory in pages. -/
  pages : Nat → S → Nat
  /-- The page size of a memory. -/
  pageSize : Nat → Nat
  /-- The address type of a memory. -/
  memTy : Nat → ITy
  /-- The address type of a table. -/
  tableTy : Nat → ITy
  /-- Reading at an address that is in bounds. -/
  load : Load → Nat → Nat → S → Val
  /-- Writing at an address that is in bounds. -/
  store : Store → Nat → Nat → Val → S → S
  /-- Bulk instructions. -/
  bulk : Bulk → List Val → S → Option (List Val × S)
  /-- Other instructions. -/
  prim : P → List Val → S → Option (List Val × S)
  /-- Does a conditional branch branch, and the operands after it? -/
  brOn : P → List Val → S → Option (Bool × List Val)
  /-- The function that a dynamic call is to, and the arguments. -/
  target : P → List Val → S → Option (Nat × List Val)
  /-- The exception that is thrown. -/
  throw : P → List Val → S → Option (List Val)
  /-- The label and operands that handlers have for an exception. -/
  catch_ : P → List Val → Option (Nat × List Val)
  /-- Imported functions; they do not call back. -/
  host : Nat → List Val → S → Option (List Val × S)
  /-- What is read has the type of the instruction. -/
  load_ty : ∀ l m a s, (load l m a s).ty = l.result

/-- The state. `ticks` counts function calls, iterations of loops and elements processed by bulk
instructions. The latter are counted modulo 2 to the 32 (for 64-bit memories and tables there may be
more). -/
structure St (S : Type) where
  stack : List Val
  locals : Nat → Val
  globals : Nat → Val
  store : S
  ticks : Nat

/-- How execution of code ends. `stuck` does not happen for code that is valid, `timeout` is that
the budget was not enough. -/
inductive Out (S : Type) where
  | normal (st : St S)
  | branch (l : Nat) (st : St S)
  | ret (st : St S)
  | exn (vs : List Val) (st : St S)
  | trap (st : St S)
  | stuck
  | timeout

/-- The result of one instruction. -/
inductive Res (S : Type) where
  | ok (st : St S)
  | trap
  | stuck

/-- Booleans are numbers of type i32. -/
def Val.ofBool (b : Bool) : Val := .i32 (if b then 1 else 0)

/-- A binary operator on the stack; the second operand is on top. -/
def binop {S A : Type} (st : St S) (get : Val → Option A) (f : A → A → Option Val) : Res S :=
  match st.stack with
  | y :: x :: s =>
    match get x, get y with
    | some a, some b =>
      match f a b with
      | some v => .ok { st with stack := v :: s }
      | none => .trap
    | _, _ => .stuck
  | _ => .stuck

/-- A unary operator on the stack. -/
def unop {S A : Type} (st : St S) (get : Val → Option A) (f : A → Option Val) : Res S :=
  match st.stack with
  | x :: s =>
    match get x with
    | some a =>
      match f a with
      | some v => .ok { st with stack := v :: s }
      | none => .trap
    | none => .stuck
  | _ => .stuck

/-- An instruction on the operand stack and the store. -/
def ofWorld {S : Type} (st : St S) : Option (List Val × S) → Res S
  | some (stack, s) => .ok { st with stack := stack, store := s }
  | none => .trap

/-- Changing one place. -/
def update (f : Nat → Val) (i : Nat) (v : Val) : Nat → Val := fun j => if j = i then v else f j

/-- The type of the number of elements of a bulk instruction. -/
def World.lenTy {S P : Type} (W : World S P) : Bulk → ITy
  | .tableFill t => W.tableTy t
  | .tableCopy d s => if W.tableTy d = .i64 ∧ W.tableTy s = .i64 then .i64 else .i32
  | .memoryFill m => W.memTy m
  | .memoryCopy d s => if W.memTy d = .i64 ∧ W.memTy s = .i64 then .i64 else .i32
  | _ => .i32

/-- The value of a float as a number. -/
def fltVal? (t : FTy) (v : Val) : Option FVal := (v.flt? t).map fun b => FVal.ofBits t.fmt b.toNat

/-- The bits of a vector. -/
def Val.v128? : Val → Option (BitVec 128)
  | .v128 b => some b
  | _ => none

/-- One lane of a vector of floats. -/
def lane (t : FTy) (v : BitVec 128) (i : Nat) : BitVec t.bits := v.extractLsb' (i * t.bits) t.bits

/-- All bits are one if the lanes of two vectors are equal, zero otherwise. -/
def laneMask (t : FTy) (a b : BitVec 128) (i : Nat) : BitVec t.bits :=
  if (FVal.ofBits t.fmt (lane t a i).toNat).eq (FVal.ofBits t.fmt (lane t b i).toNat) then BitVec.allOnes _ else 0

/-- Comparison of vectors of floats. -/
def laneEq (t : FTy) (a b : BitVec 128) : BitVec 128 :=
  match t with
  | .f32 => laneMask .f32 a b 3 ++ laneMask .f32 a b 2 ++ laneMask .f32 a b 1 ++ laneMask .f32 a b 0
  | .f64 => laneMask .f64 a b 1 ++ laneMask .f64 a b 0

/-- One instruction. -/
def step {S P : Type} (W : World S P) (o : Op P) (st : St S) : Res S :=
  match o with
  | .unreachable => .trap
  | .localGet i => .ok { st with stack := st.locals i :: st.stack }
  | .localSet i =>
    match st.stack with
    | v :: s => .ok { st with stack := s, locals := update st.locals i v }
    | [] => .stuck
  | .localTee i =>
    match st.stack with
    | v :: s => .ok { st with stack := v :: s, locals := update st.locals i v }
    | [] => .stuck
  | .globalGet i => .ok { st with stack := st.globals i :: st.stack }
  | .globalSet i =>
    match st.stack with
    | v :: s => .ok { st with stack := s, globals := update st.globals i v }
    | [] => .stuck
  | .const v => .ok { st with stack := v :: st.stack }
  | .eqz t => unop st (·.int? t) fun a => some (.ofBool (a == 0))
  | .irel t r => binop st (·.int? t) fun a b => some (.ofBool (r.eval a b))
  | .ibin t f => binop st (·.int? t) fun a b => some (.ofInt t (f.eval a b))
  | .idiv t d => binop st (·.int? t) fun a b => (d.eval a b).map (.ofInt t)
  | .frel t r => binop st (fltVal? t) fun a b => some (.ofBool (r.eval a b))
  | .veq t => binop st Val.v128? fun a b => some (.v128 (laneEq t a b))
  | .bitselect =>
    match st.stack with
    | .v128 c :: .v128 y :: .v128 x :: s => .ok { st with stack := .v128 (x &&& c ||| y &&& ~~~c) :: s }
    | _ => .stuck
  | .trunc dst src signed => unop st (fltVal? src) fun a => (truncTo dst.bits signed a).map (.ofInt dst)
  | .wrap => unop st (·.int? .i64) fun a => some (.i32 (a.setWidth 32))
  | .select =>
    match st.stack with
    | .i32 c :: y :: x :: s => .ok { st with stack := (if c = 0 then y else x) :: s }
    | _ => .stuck
  | .memorySize m => .ok { st with stack := .ofInt (W.memTy m) (BitVec.ofNat _ (W.pages m st.store)) :: st.stack }
  | .load l m =>
    match st.stack with
    | x :: s =>
      match x.int? (W.memTy m.memory) with
      | some a =>
        if a.toNat + m.offset + l.bytes ≤ W.pages m.memory st.store * W.pageSize m.memory then
          .ok { st with stack := W.load l m.memory (a.toNat + m.offset) st.store :: s }
        else .trap
      | none => .stuck
    | [] => .stuck
  | .store o m =>
    match st.stack with
    | v :: x :: s =>
      match x.int? (W.memTy m.memory) with
      | some a =>
        if a.toNat + m.offset + o.bytes ≤ W.pages m.memory st.store * W.pageSize m.memory then
          .ok { st with stack := s, store := W.store o m.memory (a.toNat + m.offset) v st.store }
        else .trap
      | none => .stuck
    | _ => .stuck
  | .bulk b =>
    match st.stack with
    | x :: _ =>
      match x.int? (W.lenTy b) with
      | some n => ofWorld { st with ticks := st.ticks + n.toNat % 2 ^ 32 } (W.bulk b st.stack st.store)
      | none => .stuck
    | [] => .stuck
  | .prim p => ofWorld st (W.prim p st.stack st.store)

/-- What control instructions ask for. -/
inductive Jump (S : Type) where
  | next (st : St S)
  | out (o : Out S)
  | call (tail : Bool) (f : Nat) (st : St S)

/-- A conditional branch. -/
def brWhen {S : Type} (c : Bool) (l : Nat) (st : St S) : Jump S := if c then .out (.branch l st) else .next st

/-- A dynamic call. -/
def dynCall {S : Type} (tail : Bool) (st : St S) : Option (Nat × List Val) → Jump S
  | some (f, s) => .call tail f { st with stack := s }
  | none => .out (.trap st)

/-- One control instruction. -/
def jump {S P : Type} (W : World S P) (c : Ctl P) (st : St S) : Jump S :=
  match c with
  | .br l => .out (.branch l st)
  | .brIf l =>
    match st.stack with
    | .i32 c :: s => brWhen (c != 0) l { st with stack := s }
    | _ => .out .stuck
  | .brTable ls d =>
    match st.stack with
    | .i32 c :: s => .out (.branch (ls.getD c.toNat d) { st with stack := s })
    | _ => .out .stuck
  | .brOn p l =>
    match W.brOn p st.stack st.store with
    | some (c, s) => brWhen c l { st with stack := s }
    | none => .out (.trap st)
  | .ret => .out (.ret st)
  | .call f => .call false f st
  | .callDyn p => dynCall false st (W.target p st.stack st.store)
  | .retCall f => .call true f st
  | .retCallDyn p => dynCall true st (W.target p st.stack st.store)
  | .throw p =>
    match W.throw p st.stack st.store with
    | some vs => .out (.exn vs st)
    | none => .out (.trap st)

/-- Functions with their numbers of parameters and results. -/
structure Func (P : Type) where
  params : Nat
  results : Nat
  locals : List Ty
  body : Code P
  deriving DecidableEq, Repr

/-- The state in which the body of a function starts. -/
def Func.start {S P : Type} (fn : Func P) (st : St S) : St S :=
  { stack := []
    locals := fun i =>
      if i < fn.params then (st.stack.take fn.params).reverse.getD i (.ref 0)
      else .zero (fn.locals.getD (i - fn.params) .ref)
    globals := st.globals, store := st.store, ticks := st.ticks + 1 }

/-- The caller after a call. -/
def St.resume {S : Type} (caller st : St S) (stack : List Val) : St S :=
  { caller with stack := stack, globals := st.globals, store := st.store, ticks := st.ticks }

/-- The end of a call, given how the body ended. -/
def Func.finish {S P : Type} (fn : Func P) (caller : St S) : Out S → Out S
  | .normal st | .ret st | .branch 0 st =>
    .normal (caller.resume st (st.stack.take fn.results ++ caller.stack.drop fn.params))
  | .branch (_ + 1) _ => .stuck
  | .exn vs st => .exn vs (caller.resume st [])
  | .trap st => .trap (caller.resume st [])
  | .stuck => .stuck
  | .timeout => .timeout

/-- The state in which a block with these many parameters starts. -/
def St.enter {S : Type} (np : Nat) (st : St S) : St S := { st with stack := st.stack.take np }

/-- The state after a block, given the values of its label and the operands below. -/
def St.leave {S : Type} (n : Nat) (below : List Val) (st : St S) : St S := { st with stack := st.stack.take n ++ below }

/-- The end of a block that is not a loop. -/
def leave {S : Type} (nr : Nat) (below : List Val) : Out S → Out S
  | .normal st => .normal (st.leave nr below)
  | .branch 0 st => .normal (st.leave nr below)
  | .branch (l + 1) st => .branch l st
  | .ret st => .ret st
  | .exn vs st => .exn vs st
  | .trap st => .trap st
  | .stuck => .stuck
  | .timeout => .timeout

/-- Exceptions are given to the handlers of a block. The labels are those outside of the block. -/
def handle {S P : Type} (W : World S P) (h : P) (nr : Nat) (below : List Val) : Out S → Out S
  | .exn vs st =>
    match W.catch_ h vs with
    | some (l, vs') => .branch l { st with stack := vs' }
    | none => .exn vs st
  | o => leave nr below o

/-- Going on after what ended normally. -/
def Out.andThen {S : Type} (o : Out S) (f : St S → Out S) : Out S :=
  match o with
  | .normal st => f st
  | o => o

/-- The end of a tail call is the end of the function. -/
def Out.tail {S : Type} : Out S → Out S
  | .normal st => .ret st
  | o => o

/-- The end of a call of an imported function. -/
def hostRes {S : Type} (st : St S) : Option (List Val × S) → Out S
  | some (stack, s) => .normal { st with stack := stack, store := s }
  | none => .trap st

mutual
/-- Execution with a budget. -/
def exec {S P : Type} (W : World S P) (M : Nat → Option (Func P)) : Nat → Code P → St S → Out S
  | 0, _, _ => .timeout
  | _ + 1, .nil, st => .normal st
  | n + 1, .op o k, st =>
    match step W o st with
    | .ok st' => exec W M n k st'
    | .trap => .trap st
    | .stuck => .stuck
  | n + 1, .ctl c k, st =>
    match jump W c st with
    | .next st' => exec W M n k st'
    | .out o => o
    | .call false f st' => (invoke W M n f st').andThen (exec W M n k)
    | .call true f st' => (invoke W M n f st').tail
  | n + 1, .block .block np nr body k, st =>
    (leave nr (st.stack.drop np) (exec W M n body (st.enter np))).andThen (exec W M n k)
  | n + 1, .block (.tryTable h) np nr body k, st =>
    (handle W h nr (st.stack.drop np) (exec W M n body (st.enter np))).andThen (exec W M n k)
  | n + 1, .block .loop np nr body k, st =>
    match exec W M n body { st.enter np with ticks := st.ticks + 1 } with
    | .branch 0 st' => exec W M n (.block .loop np nr body k) (st'.leave np (st.stack.drop np))
    | o => (leave nr (st.stack.drop np) o).andThen (exec W M n k)
  | n + 1, .ifThen np nr a k, st =>
    match st.stack with
    | .i32 c :: s =>
      if c = 0 then exec W M n k { st with stack := s }
      else (leave nr (s.drop np) (exec W M n a (St.enter np { st with stack := s }))).andThen (exec W M n k)
    | _ => .stuck
  | n + 1, .ifElse np nr a b k, st =>
    match st.stack with
    | .i32 c :: s =>
      (leave nr (s.drop np) (exec W M n (if c = 0 then b else a) (St.enter np { st with stack := s }))).andThen
        (exec W M n k)
    | _ => .stuck
/-- A call; the arguments are on the stack. Functions that are not in `M` are imported. -/
def invoke {S P : Type} (W : World S P) (M : Nat → Option (Func P)) : Nat → Nat → St S → Out S
  | 0, _, _ => .timeout
  | n + 1, f, st =>
    match M f with
    | some fn => fn.finish st (exec W M n fn.body (fn.start st))
    | none => hostRes st (W.host f st.stack st.store)
end

end Verif.Smith
