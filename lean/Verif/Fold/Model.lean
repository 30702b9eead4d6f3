/-!
The printer of folded instructions (crates/wasmprinter/src/operator.rs, `PrintOperatorFolded`) and the
parser of instructions (crates/wast/src/core/expr.rs, `ExpressionParser`).

The text of one instruction with its immediates, `(type ..)`, `(result ..)`, label and comments is one
token: how it is printed and parsed is not part of this model. White space, line breaks, colors, offsets
and spans are left out.
-/
namespace Verif.Fold

/-- Instructions, as far as the printer and the parser tell them apart; `α` is the rest. `block` is
`block`, `loop` and `try_table` (operator.rs lines 1553-1557, expr.rs lines 260-262). `legacy` is `try`, `catch`,
`catch_all` and `delegate` (operator.rs lines 1562-1565). -/
inductive Ins (α : Type) where
  | plain (a : α)
  | block (a : α)
  | iff (a : α)
  | else_
  | end_
  | legacy (a : α)
  deriving DecidableEq, Repr

/-- An instruction with its branch hint. -/
abbrev Op (α : Type) := Ins α × Option Bool

/-- Tokens. `hint` is the annotation `@metadata.code.branch_hint` with its string. `else` is both
an instruction and a keyword. -/
inductive Tok (α : Type) where
  | lp
  | rp
  | ins (i : Ins α)
  | then_
  | hint (taken : Bool)
  deriving DecidableEq, Repr

/-! ### The printer -/

/-- `struct FoldedInstruction` (operator.rs lines 37-46). -/
inductive Tree (α : Type) where
  | node (plain : Tok α) (folded : List (Tree α)) (results : Nat) (hint : Option Bool)

/-- The field `results`. -/
def Tree.results : Tree α → Nat
  | .node _ _ r _ => r

/-- `FrameKind`, where `Block`, `Loop` and `TryTable` are the same. -/
inductive Kind where
  | block | iff | else_
  deriving DecidableEq, Repr

/-- `struct Block` (operator.rs lines 48-59); the type is not used for printing. -/
structure Block (α : Type) where
  kind : Kind
  plain : Tok α
  folded : List (Tree α) := []
  predicate : Option (List (Tree α)) := none
  consequent : Option (List (Tree α)) := none
  hint : Option Bool := none

/-- The fields `control` and `branch_hint` of `PrintOperatorFolded` (lines 61-68). The last block comes
first. -/
structure Printer (α : Type) where
  control : List (Block α)
  hint : Option Bool := none

/-- `u32::MAX`. -/
def u32Max : Nat := 2 ^ 32 - 1

/-- `u32::saturating_add`. -/
def satAdd (a b : Nat) : Nat := min (a + b) u32Max

/-- The loop in `handle_plain` (lines 1713-1724) over the rest of the instructions from the last on: the number of
instructions that are operands, and whether the instruction is unfoldable. -/
def scan (params : Nat) : List (Tree α) → Nat → Nat → Nat × Bool
  | [], _, _ => (0, false)
  | t :: ts, seen, count =>
    let count := satAdd count t.results
    if count = params then (seen + 1, false)
    else if count > params then (0, true)
    else scan params ts (seen + 1) count

/-- `handle_plain` (lines 1706-1737). -/
def handlePlain (p : Printer α) (plain : Tok α) (params results : Nat) : Except String (Printer α) :=
  match p.control with
  | [] => .error "instruction without enclosing block"
  | b :: bs =>
    let q := if params > 0 then scan params b.folded.reverse 0 0 else (0, false)
    let results := if q.2 then u32Max else results
    let first := b.folded.length - q.1
    let inst := Tree.node plain (b.folded.drop first) results p.hint
    .ok { control := { b with folded := b.folded.take first ++ [inst] } :: bs, hint := none }

/-- `push_block` (lines 1795-1808) with `reject_branch_hint` (lines 1788-1793). -/
def pushBlock (p : Printer α) (plain : Tok α) : Except String (Printer α) :=
  if p.hint.isSome then .error "branch hints are only supported on an `if` or a plain instructions"
  else .ok { p with control := { kind := .block, plain } :: p.control }

/-- `push_if` (lines 1810-1832). -/
def pushIf (p : Printer α) (plain : Tok α) : Except String (Printer α) :=
  match p.control with
  | [] => .error "no enclosing block"
  | b :: bs =>
    let predicate := b.folded.drop (b.folded.length - 1)
    .ok { control := { kind := .iff, plain, predicate := some predicate, hint := p.hint } ::
            { b with folded := b.folded.dropLast } :: bs
          hint := none }

/-- `handle_else` (lines 1834-1861). -/
def handleElse (p : Printer α) : Except String (Printer α) :=
  if p.hint.isSome then .error "branch hints are only supported on an `if` or a plain instructions"
  else match p.control with
    | ⟨.iff, plain, folded, predicate, _, hint⟩ :: bs =>
      .ok { p with control := { kind := .else_, plain, folded := [], predicate,
                                consequent := some folded, hint } :: bs }
    | _ => .error "no enclosing if block"

/-- The `match` in `handle_end` (lines 1870-1944). -/
def close (b : Block α) (results : Nat) : Except String (Tree α) :=
  match b with
  | ⟨.block, plain, folded, _, _, _⟩ => .ok (.node plain folded results none)
  | ⟨.iff, plain, folded, some predicate, _, hint⟩ =>
    .ok (.node plain (predicate ++ [.node .then_ folded results none]) results hint)
  | ⟨.else_, plain, folded, some predicate, some consequent, hint⟩ =>
    .ok (.node plain (predicate ++ [.node .then_ consequent results none] ++
      [.node (.ins .else_) folded results none]) results hint)
  | _ => .error "unhandled frame kind"

/-- The end of `handle_end` (lines 1946-1952). -/
def pushInst (p : Printer α) (bs : List (Block α)) (t : Tree α) : Except String (Printer α) :=
  match bs with
  | [] => .error "end without outer block"
  | b :: bs => .ok { p with control := { b with folded := b.folded ++ [t] } :: bs }

/-- `handle_end` (lines 1867-1953). -/
def handleEnd (p : Printer α) (results : Nat) : Except String (Printer α) :=
  if p.hint.isSome then .error "branch hints are only supported on an `if` or a plain instructions"
  else match p.control with
    | [] => .error "unhandled frame kind"
    | b :: bs => (close b results).bind (pushInst p bs)

/-- `visit_operator` (lines 1508-1572). The arities come from `operator_arity`, which looks at the module and at the
control stack; any function is allowed here. -/
def visit (arity : List (Block α) → Ins α → Nat × Nat) (p : Printer α) (i : Ins α) :
    Except String (Printer α) :=
  let ar := arity p.control i
  match i with
  | .block _ => pushBlock p (.ins i)
  | .iff _ => pushIf p (.ins i)
  | .else_ => handleElse p
  | .end_ => handleEnd p ar.2
  | .legacy _ => .error "legacy-exceptions not supported"
  | .plain _ => handlePlain p (.ins i) ar.1 ar.2

/-- `branch_hint` (lines 1496-1502) is called if there is a hint for the next operator. -/
def setHint (p : Printer α) : Option Bool → Printer α
  | none => p
  | some v => { p with hint := some v }

/-- The loop of `print_operators` (lib.rs lines 1594-1644), with the hint of each operator. -/
def run (arity : List (Block α) → Ins α → Nat × Nat) :
    Printer α → List (Op α) → Except String (Printer α)
  | p, [] => .ok p
  | p, (i, h) :: ops => (visit arity (setHint p h) i).bind fun p => run arity p ops

/-- The annotation before an instruction (operator.rs lines 1763-1768; lines 1453-1460 if instructions are not
folded). -/
def hintToks : Option Bool → List (Tok α)
  | none => []
  | some v => [.lp, .hint v, .rp]

mutual
/-- `PrintOperatorFolded::print` (lines 1756-1785). -/
def Tree.toks : Tree α → List (Tok α)
  | .node plain folded _ hint => hintToks hint ++ [.lp, plain] ++ toksList folded ++ [.rp]

/-- The loops over instructions (lines 1580-1582, 1779-1781). -/
def toksList : List (Tree α) → List (Tok α)
  | [] => []
  | t :: ts => t.toks ++ toksList ts
end

/-- `finalize` (lines 1576-1590), before printing. -/
def finalize (p : Printer α) : Except String (List (Tree α)) :=
  match p.control with
  | [b] => .ok b.folded
  | _ => .error "instruction sequence not closed"

/-- The block of `begin_function` and `begin_const_expr` (lines 1668-1700). The text is not printed. -/
def start : Printer α := { control := [{ kind := .block, plain := .lp }] }

/-- The operators of a function or a constant expression, except for the last `end`, folded. -/
def fold (arity : List (Block α) → Ins α → Nat × Nat) (ops : List (Op α)) :
    Except String (List (Tree α)) :=
  (run arity start ops).bind finalize

/-- What is printed if `fold_instructions` is set. -/
def printFolded (arity : List (Block α) → Ins α → Nat × Nat) (ops : List (Op α)) :
    Except String (List (Tok α)) :=
  (fold arity ops).map toksList

/-- What is printed otherwise (`PrintOperator`). -/
def printFlat (ops : List (Op α)) : List (Tok α) := ops.flatMap fun o => hintToks o.2 ++ [.ins o.1]

/-! ### The parser -/

/-- `enum If` (expr.rs lines 169-180) with the hint in `Level::If`. -/
inductive If (α : Type) where
  | clause (i : Ins α) (hint : Option Bool)
  | then_
  | else_
  deriving DecidableEq, Repr

/-- `enum Level` (lines 140-166). -/
inductive Level (α : Type) where
  | endWith (i : Ins α) (hint : Option Bool)
  | iff (s : If α)
  | ifArm
  | branchHint
  deriving DecidableEq, Repr

/-- `struct ExpressionParser` (lines 103-131). The last level comes first. -/
structure Parser (α : Type) where
  raw : List (Ins α) := []
  stack : List (Level α) := []
  hints : List (Nat × Bool) := []
  pending : Option Bool := none
  deriving DecidableEq, Repr

/-- `push_instr` (lines 446-451). -/
def Parser.push (s : Parser α) (i : Ins α) : Parser α := { s with raw := s.raw ++ [i] }

/-- `push_instr_with_hint` (lines 472-480). -/
def Parser.pushHint (s : Parser α) (i : Ins α) : Option Bool → Parser α
  | none => s.push i
  | some v => Parser.push { s with hints := s.hints ++ [(s.raw.length, v)] } i

/-- `parse_branch_hint` (lines 425-444), then the level is pushed (lines 244-248). -/
def openHint (s : Parser α) (v : Bool) : Except String (Parser α) :=
  if s.pending.isSome then .error "@metadata.code.branch_hint annotation: duplicate annotation"
  else .ok { s with pending := some v, stack := .branchHint :: s.stack }

/-- Lines 254-282: the first instruction after a parenthesis. -/
def openIns (s : Parser α) (i : Ins α) : Parser α :=
  let hint := s.pending
  let s := { s with pending := none }
  match i with
  | .block _ =>
    let s := s.pushHint i hint
    { s with stack := .endWith .end_ none :: s.stack }
  | .iff _ => { s with stack := .iff (.clause i hint) :: s.stack }
  | _ => { s with stack := .endWith i hint :: s.stack }

/-- `Paren::Left` (lines 243-282) after `handle_if_lparen` returned `false`. -/
def openRest (s : Parser α) : Tok α → Except String (Parser α)
  | .hint v => openHint s v
  | .ins i => .ok (openIns s i)
  | _ => .error "expected an instruction"

/-- `If::Clause` in `handle_if_lparen` (lines 394-406), at `then`. -/
def openThen (s : Parser α) (i : Ins α) (h : Option Bool) (st : List (Level α)) :
    Except String (Parser α) :=
  if s.pending.isSome then
    .error "@metadata.code.branch_hint annotation: must precede an instruction"
  else
    let s := s.pushHint i h
    .ok { s with stack := .ifArm :: .iff .then_ :: st }

/-- `Paren::Left` (lines 235-283) with `handle_if_lparen` (lines 378-423), and the token after the parenthesis. -/
def opened [DecidableEq α] (s : Parser α) (t : Tok α) : Except String (Parser α) :=
  match s.stack with
  | .iff (.clause i h) :: st => if t = .then_ then openThen s i h st else openRest s t
  | .iff .then_ :: st =>
    if t = .ins .else_ then
      .ok { s.push .else_ with stack := .ifArm :: .iff .else_ :: st }
    else .error "expected `else`"
  | .iff .else_ :: _ => .error "unexpected token: too many payloads inside of `(if)`"
  | _ => openRest s t

/-- `check_hint_consumed` (lines 457-462). -/
def Parser.checkHint (s : Parser α) : Except String (Parser α) :=
  if s.pending.isSome then
    .error "@metadata.code.branch_hint annotation: must precede an instruction"
  else .ok s

/-- The `match` on levels in `Paren::Right` (lines 293-313). -/
def closeLevel (s : Parser α) : Level α → Except String (Parser α)
  | .endWith i h => s.checkHint.map fun s => s.pushHint i h
  | .ifArm => s.checkHint
  | .branchHint => .ok s
  | .iff (.clause _ _) => s.checkHint.bind fun _ => .error "previous `if` had no `then`"
  | .iff _ => s.checkHint.map fun s => s.push .end_

/-- `Paren::Right` (lines 288-314), if there is a level. -/
def closed (s : Parser α) (l : Level α) (st : List (Level α)) : Except String (Parser α) :=
  closeLevel { s with stack := st } l

/-- Whether an `if` is parsed (lines 210-214). -/
def inIf : List (Level α) → Bool
  | .iff _ :: _ => true
  | _ => false

/-- `Paren::None` (lines 219-225). -/
def flat (s : Parser α) (i : Ins α) : Except String (Parser α) :=
  if inIf s.stack then .error "expected `(`"
  else .ok (Parser.pushHint { s with pending := none } i s.pending)

/-- `ExpressionParser::parse` (lines 197-321): the state at the end, and the tokens that are left. The loop ends
before a closing parenthesis or at the end if there is no level (`Parser::is_empty`). -/
def parse [DecidableEq α] (s : Parser α) : List (Tok α) → Except String (Parser α × List (Tok α))
  | [] =>
    match s.stack with
    | [] => s.checkHint.map (·, [])
    | _ => .error "expected an instruction"
  | .rp :: ts =>
    match s.stack with
    | [] => s.checkHint.map (·, .rp :: ts)
    | l :: st => (closed s l st).bind fun s => parse s ts
  | [.lp] => .error "expected an instruction"
  | .lp :: t :: ts => (opened s t).bind fun s => parse s ts
  | .ins i :: ts => (flat s i).bind fun s => parse s ts
  | .then_ :: _ => .error "unknown operator or unexpected token"
  | .hint _ :: _ => .error "expected an instruction"

/-- The instructions and the branch hints that the parser makes of a text. -/
def parsed [DecidableEq α] (ts : List (Tok α)) :
    Except String (List (Ins α) × List (Nat × Bool) × List (Tok α)) :=
  (parse {} ts).map fun r => (r.1.raw, r.1.hints, r.2)

end Verif.Fold
