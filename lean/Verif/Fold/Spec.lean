import Verif.Fold.Model
/-! What folded instructions mean, and which operators are well nested. -/
namespace Verif.Fold

/-- The folded instructions of the text format, and the sequence of instructions they stand for:
operands come before plain instructions and conditions before `if`; blocks end with `end`. An
annotation is that of the instruction it is before. -/
inductive Folded : List (Tok α) → List (Op α) → Prop
  | nil : Folded [] []
  | plain {us ps ts os a h} : Folded us ps → Folded ts os →
      Folded (us ++ (hintToks h ++ [.lp, .ins (.plain a)] ++ ts ++ [.rp])) (ps ++ (os ++ [(.plain a, h)]))
  | block {us ps ts os a h} : Folded us ps → Folded ts os →
      Folded (us ++ (hintToks h ++ [.lp, .ins (.block a)] ++ ts ++ [.rp]))
        (ps ++ ((.block a, h) :: os ++ [(.end_, none)]))
  | iff {us ps cs os ts qs a h} : Folded us ps → Folded cs os → Folded ts qs →
      Folded (us ++ (hintToks h ++ [.lp, .ins (.iff a)] ++ cs ++ ([.lp, .then_] ++ ts ++ [.rp]) ++ [.rp]))
        (ps ++ (os ++ (.iff a, h) :: qs ++ [(.end_, none)]))
  | ifElse {us ps cs os ts qs es rs a h} : Folded us ps → Folded cs os → Folded ts qs → Folded es rs →
      Folded (us ++ (hintToks h ++ [.lp, .ins (.iff a)] ++ cs ++ ([.lp, .then_] ++ ts ++ [.rp]) ++
          ([.lp, .ins .else_] ++ es ++ [.rp]) ++ [.rp]))
        (ps ++ (os ++ (.iff a, h) :: qs ++ (.else_, none) :: rs ++ [(.end_, none)]))

/-- Sequences in which blocks are closed, without legacy exceptions, with hints on plain instructions
and `if` only. -/
inductive Nested : List (Op α) → Prop
  | nil : Nested []
  | plain {os a h} : Nested os → Nested (os ++ [(.plain a, h)])
  | block {os ps a} : Nested os → Nested ps → Nested (os ++ (.block a, none) :: ps ++ [(.end_, none)])
  | iff {os ps a h} : Nested os → Nested ps → Nested (os ++ (.iff a, h) :: ps ++ [(.end_, none)])
  | ifElse {os ps qs a h} : Nested os → Nested ps → Nested qs →
      Nested (os ++ (.iff a, h) :: ps ++ (.else_, none) :: qs ++ [(.end_, none)])

/-- The hints with the positions of their instructions, from position `n` on. -/
def positions (n : Nat) : List (Op α) → List (Nat × Bool)
  | [] => []
  | (_, none) :: os => positions (n + 1) os
  | (_, some v) :: os => (n, v) :: positions (n + 1) os

/-- The text ends here: nothing is left, or a closing parenthesis. -/
def AtEnd (rest : List (Tok α)) : Prop := rest = [] ∨ ∃ ts, rest = .rp :: ts

/-- The number of operands that instructions leave; `u32Max` stands for unknown. -/
def left : List (Tree α) → Nat
  | [] => 0
  | t :: ts => t.results + left ts

/-- Instructions are folded only if they leave exactly the operands that are taken. -/
inductive Fed (arity : Ins α → Nat × Nat) : Tree α → Prop
  | plain {a cs r h} : (∀ c ∈ cs, Fed arity c) → (cs ≠ [] → left cs = (arity (.plain a)).1) →
      (r = (arity (.plain a)).2 ∨ (cs = [] ∧ r = u32Max)) → Fed arity (.node (.ins (.plain a)) cs r h)
  | block {a cs r h} : (∀ c ∈ cs, Fed arity c) → Fed arity (.node (.ins (.block a)) cs r h)
  | iff {a cs ts r r' h} : cs.length ≤ 1 → (∀ c ∈ cs, Fed arity c) → (∀ c ∈ ts, Fed arity c) →
      Fed arity (.node (.ins (.iff a)) (cs ++ [.node .then_ ts r none]) r' h)
  | ifElse {a cs ts es r r' r'' h} : cs.length ≤ 1 → (∀ c ∈ cs, Fed arity c) →
      (∀ c ∈ ts, Fed arity c) → (∀ c ∈ es, Fed arity c) →
      Fed arity (.node (.ins (.iff a)) (cs ++ [.node .then_ ts r none] ++
        [.node (.ins .else_) es r' none]) r'' h)

end Verif.Fold
