import Verif.Fold.Feed
/-! C70: folded instructions are parsed back as the instructions that were printed. -/
namespace Verif.Fold

/-- What is printed are folded instructions that stand for the operators, whatever the arities are. -/
theorem folded_print {arity : List (Block α) → Ins α → Nat × Nat} {ops : List (Op α)}
    {ts : List (Tok α)} (h : printFolded arity ops = .ok ts) : Folded ts ops := by
  unfold printFolded at h
  cases hf : fold arity ops with
  | error e => rw [hf] at h; cases h
  | ok trees =>
    rw [hf] at h
    cases h
    exact (fold_phrases hf).folded

/-- The parser understands folded instructions. -/
theorem folded_parse [DecidableEq α] {ts rest : List (Tok α)} {ops : List (Op α)} (h : Folded ts ops)
    (hr : AtEnd rest) : parsed (ts ++ rest) = .ok (ops.map (·.1), positions 0 ops, rest) := by
  unfold parsed
  rw [parse_folded h _ _ (by exact rfl) (by exact trivial), parse_end rfl rfl hr]
  simp [Except.map, Parser.pushAll]

/-- Printing folded instructions and parsing them gives the instructions and their hints. -/
theorem folded_roundtrip [DecidableEq α] {arity : List (Block α) → Ins α → Nat × Nat}
    {ops : List (Op α)} {ts rest : List (Tok α)} (h : printFolded arity ops = .ok ts) (hr : AtEnd rest) :
    parsed (ts ++ rest) = .ok (ops.map (·.1), positions 0 ops, rest) :=
  folded_parse (folded_print h) hr

/-- Printing instructions one by one and parsing them gives the instructions and their hints. -/
theorem flat_roundtrip [DecidableEq α] (ops : List (Op α)) {rest : List (Tok α)} (hr : AtEnd rest) :
    parsed (printFlat ops ++ rest) = .ok (ops.map (·.1), positions 0 ops, rest) := by
  unfold parsed
  rw [parse_flat _ _ _ rfl rfl, parse_end rfl rfl hr]
  simp [Except.map, Parser.pushAll]

/-- Exactly the well-nested sequences can be printed folded, whatever the arities are. -/
theorem folded_ok_iff (arity : List (Block α) → Ins α → Nat × Nat) (ops : List (Op α)) :
    (∃ ts, printFolded arity ops = .ok ts) ↔ Nested ops := by
  constructor
  · rintro ⟨ts, h⟩
    refine folded_nested (folded_print h) ?_
    unfold printFolded fold at h
    cases hr : run arity start ops with
    | error e => rw [hr] at h; cases h
    | ok p => exact run_hints hr
  · intro h
    obtain ⟨fs, hr⟩ := nested_runs arity h { kind := .block, plain := .lp } []
    refine ⟨toksList fs, ?_⟩
    unfold printFolded fold start
    rw [hr]
    rfl

/-- Operands are put into an instruction only if they are as many as it takes. The arities are those
of the instructions; as `α` is any type, two instructions with the same text may have different
ones. -/
theorem folded_operands {arity : Ins α → Nat × Nat} (ha : ∀ i, (arity i).1 < u32Max)
    {ops : List (Op α)} {trees : List (Tree α)} (h : fold (fun _ => arity) ops = .ok trees) :
    ∀ t ∈ trees, Fed arity t := by
  unfold fold at h
  cases hr : run (fun _ => arity) start ops with
  | error e => rw [hr] at h; cases h
  | ok p =>
    rw [hr] at h
    have hf := run_fed ha (p := start) (by simp [start])
      (show FedIn arity _ ∧ _ from ⟨⟨by simp, by simp, by simp⟩, rfl⟩) hr
    obtain ⟨con, hint⟩ := p
    match con, hf, h with
    | [b], hf, h =>
      cases h
      exact hf.1.1
    | [], hf, h => cases h
    | _ :: _ :: _, hf, h => cases h

/-- If the last instructions leave exactly the operands that are taken, then they are put into the
instruction. The first of them leaves some, as otherwise it is not needed. -/
theorem folded_if_possible {arity : List (Block α) → Ins α → Nat × Nat} {a : α} {b : Block α}
    {bs : List (Block α)} {h : Option Bool} {xs cs : List (Tree α)} {t : Tree α}
    (hb : b.folded = xs ++ t :: cs) (ht : 0 < t.results)
    (hl : left (t :: cs) = (arity (b :: bs) (.plain a)).1) (hp : left (t :: cs) < u32Max) :
    visit arity ⟨b :: bs, h⟩ (.plain a) = .ok ⟨{ b with folded :=
      xs ++ [.node (.ins (.plain a)) (t :: cs) (arity (b :: bs) (.plain a)).2 h] } :: bs, none⟩ := by
  have hs : scan (arity (b :: bs) (.plain a)).1 b.folded.reverse 0 0 = (cs.length + 1, false) := by
    rw [hb, List.reverse_append, List.reverse_cons, List.append_assoc, List.singleton_append,
      scan_found (by rwa [← hl]) t _ ht]
    · simp
    · rw [left_reverse, ← hl, left]; omega
  have hpos : (arity (b :: bs) (.plain a)).1 > 0 := by rw [← hl, left]; omega
  have hlen : b.folded.length - (cs.length + 1) = xs.length := by
    rw [hb]; simp
  simp only [visit, handlePlain, if_pos hpos, hs, hlen]
  simp [hb]

/-! ### Examples -/

/-- `local.get 0 (hint) if (a + b) else end; drop`. -/
def exOps : List (Op Nat) :=
  [(.plain 1, none), (.iff 0, some true), (.plain 1, none), (.plain 1, none), (.plain 2, none),
   (.else_, none), (.plain 1, none), (.end_, none), (.plain 3, none)]

/-- 1 makes an operand, 2 takes two, 3 drops one. -/
def exArity : Ins Nat → Nat × Nat
  | .plain 1 => (0, 1)
  | .plain 2 => (2, 1)
  | .plain 3 => (1, 0)
  | .end_ => (0, 1)
  | _ => (0, 0)

example : printFolded (fun _ => exArity) exOps = .ok
    [.lp, .ins (.plain 3), .lp, .hint true, .rp, .lp, .ins (.iff 0), .lp, .ins (.plain 1), .rp,
     .lp, .then_, .lp, .ins (.plain 2), .lp, .ins (.plain 1), .rp, .lp, .ins (.plain 1), .rp, .rp, .rp,
     .lp, .ins .else_, .lp, .ins (.plain 1), .rp, .rp, .rp, .rp] := by decide +kernel

example : positions 0 exOps = [(1, true)] := rfl

example : Nested exOps := (folded_ok_iff (fun _ => exArity) exOps).1 ⟨_, rfl⟩

example : ∀ i, (exArity i).1 < u32Max := by
  intro i
  unfold exArity u32Max
  split <;> decide

/-- The predicate of `if` is the last instruction, even if it makes no operand. -/
example : printFolded (fun _ => exArity) [(.plain 4, none), (.iff 0, none), (.end_, none)] = .ok
    [.lp, .ins (.iff 0), .lp, .ins (.plain 4), .rp, .lp, .then_, .rp, .rp] := by decide +kernel

/-- A hint on a block cannot be printed folded. -/
example : ¬ ∃ ts, printFolded (fun _ => exArity) [(.block 0, some true), (.end_, none)] = .ok ts := by
  rintro ⟨_, h⟩; cases h

end Verif.Fold
