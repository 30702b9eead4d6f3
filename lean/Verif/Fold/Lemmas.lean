import Verif.Fold.Spec
import Mathlib.Data.List.Forall2
namespace Verif.Fold

/-! ### The grammar -/

theorem Folded.append {us ts : List (Tok α)} {ps os : List (Op α)} (h1 : Folded us ps)
    (h2 : Folded ts os) : Folded (us ++ ts) (ps ++ os) := by
  induction h2 with
  | nil => simpa using h1
  | plain _ h ih _ => simpa using Folded.plain ih h
  | block _ h ih _ => simpa using Folded.block ih h
  | iff _ h h' ih _ _ => simpa using Folded.iff ih h h'
  | ifElse _ h h' h'' ih _ _ _ => simpa using Folded.ifElse ih h h' h''

theorem toksList_append (xs ys : List (Tree α)) : toksList (xs ++ ys) = toksList xs ++ toksList ys := by
  induction xs with
  | nil => rfl
  | cons x xs ih => simp [toksList, ih]

/-- A tree stands for these operators. -/
def Phrase (t : Tree α) (os : List (Op α)) : Prop := Folded t.toks os

/-- A list of trees stands for these operators. -/
def Phrases (ts : List (Tree α)) (os : List (Op α)) : Prop :=
  ∃ oss : List (List (Op α)), os = oss.flatten ∧ List.Forall₂ Phrase ts oss

theorem Phrases.nil : Phrases ([] : List (Tree α)) [] := ⟨[], rfl, .nil⟩

theorem Phrases.folded {ts : List (Tree α)} {os : List (Op α)} (h : Phrases ts os) :
    Folded (toksList ts) os := by
  obtain ⟨oss, rfl, h⟩ := h
  induction h with
  | nil => exact .nil
  | cons h1 _ ih => exact Folded.append h1 ih

theorem Phrases.append {ts us : List (Tree α)} {os ps : List (Op α)} (h1 : Phrases ts os)
    (h2 : Phrases us ps) : Phrases (ts ++ us) (os ++ ps) := by
  obtain ⟨a, rfl, h1⟩ := h1
  obtain ⟨b, rfl, h2⟩ := h2
  exact ⟨a ++ b, by simp, List.rel_append h1 h2⟩

theorem Phrases.single {t : Tree α} {os : List (Op α)} (h : Phrase t os) : Phrases [t] os :=
  ⟨[os], by simp, .cons h .nil⟩

theorem Phrases.split {ts : List (Tree α)} {os : List (Op α)} (n : Nat) (h : Phrases ts os) :
    ∃ a b, os = a ++ b ∧ Phrases (ts.take n) a ∧ Phrases (ts.drop n) b := by
  obtain ⟨oss, rfl, h⟩ := h
  refine ⟨(oss.take n).flatten, (oss.drop n).flatten, ?_, ⟨_, rfl, List.forall₂_take n h⟩,
    ⟨_, rfl, List.forall₂_drop n h⟩⟩
  rw [← List.flatten_append, List.take_append_drop]

/-! ### The printer keeps the order -/

/-- The operators before the contents of the last block. -/
inductive Before : Block α → List (Block α) → List (Op α) → Prop
  | root {b} : b.kind = .block → Before b [] []
  | block {b c bs pre os a} : Before c bs pre → Phrases c.folded os → b.kind = .block →
      b.plain = .ins (.block a) → Before b (c :: bs) (pre ++ os ++ [(.block a, none)])
  | iff {b c bs pre os ps p a} : Before c bs pre → Phrases c.folded os → b.kind = .iff →
      b.plain = .ins (.iff a) → b.predicate = some p → Phrases p ps →
      Before b (c :: bs) (pre ++ os ++ ps ++ [(.iff a, b.hint)])
  | else_ {b c bs pre os ps p q qs a} : Before c bs pre → Phrases c.folded os → b.kind = .else_ →
      b.plain = .ins (.iff a) → b.predicate = some p → Phrases p ps → b.consequent = some q →
      Phrases q qs → Before b (c :: bs) (pre ++ os ++ ps ++ [(.iff a, b.hint)] ++ qs ++ [(.else_, none)])

theorem Before.folded {b : Block α} {bs : List (Block α)} {pre : List (Op α)} (h : Before b bs pre)
    (fs : List (Tree α)) : Before { b with folded := fs } bs pre := by
  cases h with
  | root h => exact .root h
  | block h1 h2 h3 h4 => exact .block h1 h2 h3 h4
  | @iff _ _ _ _ _ _ _ _ h1 h2 h3 h4 h5 h6 =>
    exact Before.iff (b := { b with folded := fs }) h1 h2 h3 h4 h5 h6
  | @else_ _ _ _ _ _ _ _ _ _ _ h1 h2 h3 h4 h5 h6 h7 h8 =>
    exact Before.else_ (b := { b with folded := fs }) h1 h2 h3 h4 h5 h6 h7 h8

/-- The operators that were printed. -/
def Done (p : Printer α) (os : List (Op α)) : Prop :=
  p.hint = none ∧ ∃ b bs pre post, p.control = b :: bs ∧ Before b bs pre ∧ Phrases b.folded post ∧
    os = pre ++ post

theorem done_start : Done (start : Printer α) [] :=
  ⟨rfl, _, _, [], [], rfl, .root rfl, .nil, rfl⟩

theorem phrase_plain {a : α} {cs : List (Tree α)} {os : List (Op α)} {r : Nat} {h : Option Bool}
    (hc : Phrases cs os) : Phrase (.node (.ins (.plain a)) cs r h) (os ++ [(.plain a, h)]) := by
  have := Folded.plain (a := a) (h := h) .nil hc.folded
  simpa [Phrase, Tree.toks] using this

theorem phrase_block {a : α} {cs : List (Tree α)} {os : List (Op α)} {r : Nat}
    (hc : Phrases cs os) : Phrase (.node (.ins (.block a)) cs r none)
      ((.block a, none) :: os ++ [(.end_, none)]) := by
  have := Folded.block (a := a) (h := none) .nil hc.folded
  simpa [Phrase, Tree.toks] using this

theorem phrase_iff {a : α} {cs ts : List (Tree α)} {os qs : List (Op α)} {r r' : Nat}
    {h : Option Bool} (hc : Phrases cs os) (ht : Phrases ts qs) :
    Phrase (.node (.ins (.iff a)) (cs ++ [.node .then_ ts r none]) r' h)
      (os ++ (.iff a, h) :: qs ++ [(.end_, none)]) := by
  have := Folded.iff (a := a) (h := h) .nil hc.folded ht.folded
  simpa [Phrase, Tree.toks, toksList_append, toksList, hintToks] using this

theorem phrase_ifElse {a : α} {cs ts es : List (Tree α)} {os qs rs : List (Op α)} {r r' r'' : Nat}
    {h : Option Bool} (hc : Phrases cs os) (ht : Phrases ts qs) (he : Phrases es rs) :
    Phrase (.node (.ins (.iff a)) (cs ++ [.node .then_ ts r none] ++ [.node (.ins .else_) es r' none]) r'' h)
      (os ++ (.iff a, h) :: qs ++ (.else_, none) :: rs ++ [(.end_, none)]) := by
  have := Folded.ifElse (a := a) (h := h) .nil hc.folded ht.folded he.folded
  simpa [Phrase, Tree.toks, toksList_append, toksList, hintToks] using this

theorem setHint_none {p : Printer α} (h : p.hint = none) (x : Option Bool) :
    setHint p x = { p with hint := x } := by
  cases x with
  | none => cases p; cases h; rfl
  | some v => rfl

theorem dropLast_eq (l : List β) : l.dropLast = l.take (l.length - 1) := List.dropLast_eq_take ..

theorem visit_done {arity : List (Block α) → Ins α → Nat × Nat} {p p' : Printer α} {os : List (Op α)}
    {i : Ins α} {h : Option Bool} (hd : Done p os) (hv : visit arity (setHint p h) i = .ok p') :
    Done p' (os ++ [(i, h)]) := by
  obtain ⟨hn, b, bs, pre, post, hc, hb, hp, rfl⟩ := hd
  rw [setHint_none hn] at hv
  cases i with
  | plain a =>
    simp only [visit, handlePlain, hc] at hv
    cases hv
    generalize hk : (b.folded.length - _) = k
    obtain ⟨x, y, rfl, h1, h2⟩ := hp.split k
    exact ⟨rfl, _, _, pre, _, rfl, hb.folded _, h1.append (.single (phrase_plain h2)), by simp⟩
  | block a =>
    simp only [visit, pushBlock] at hv
    split at hv
    · cases hv
    · next hh =>
      cases hv
      have hh : h = none := by simpa using hh
      subst hh
      exact ⟨rfl, _, _, _, [], by rw [hc], .block hb hp rfl rfl, .nil, by simp⟩
  | iff a =>
    simp only [visit, pushIf, hc] at hv
    cases hv
    obtain ⟨x, y, rfl, h1, h2⟩ := hp.split (b.folded.length - 1)
    rw [← dropLast_eq] at h1
    exact ⟨rfl, _, _, _, [], rfl, .iff (hb.folded _) h1 rfl rfl rfl h2, .nil, by simp⟩
  | else_ =>
    simp only [visit, handleElse] at hv
    split at hv
    · cases hv
    · next hh =>
      have hh : h = none := by simpa using hh
      subst hh
      rw [hc] at hv
      cases hb with
      | root hk => obtain ⟨k, _, _, _, _, _⟩ := b; cases hk; cases hv
      | block _ _ hk _ => obtain ⟨k, _, _, _, _, _⟩ := b; cases hk; cases hv
      | else_ _ _ hk _ => obtain ⟨k, _, _, _, _, _⟩ := b; cases hk; cases hv
      | iff h1 h2 hk h4 h5 h6 =>
        obtain ⟨k, pl, fs, pr, co, hi⟩ := b
        cases hk; cases h4; cases h5; cases hv
        exact ⟨rfl, _, _, _, [], rfl, .else_ h1 h2 rfl rfl rfl h6 rfl hp, .nil, by simp⟩
  | end_ =>
    simp only [visit, handleEnd] at hv
    split at hv
    · cases hv
    · next hh =>
      have hh : h = none := by simpa using hh
      subst hh
      rw [hc] at hv
      cases hb with
      | root hk => obtain ⟨k, _, _, _, _, _⟩ := b; cases hk; cases hv
      | block h1 h2 hk h4 =>
        obtain ⟨k, pl, fs, pr, co, hi⟩ := b
        cases hk; cases h4; cases hv
        exact ⟨rfl, _, _, _, _, rfl, h1.folded _, h2.append (.single (phrase_block hp)), by simp⟩
      | iff h1 h2 hk h4 h5 h6 =>
        obtain ⟨k, pl, fs, pr, co, hi⟩ := b
        cases hk; cases h4; cases h5; cases hv
        exact ⟨rfl, _, _, _, _, rfl, h1.folded _, h2.append (.single (phrase_iff h6 hp)), by simp⟩
      | else_ h1 h2 hk h4 h5 h6 h7 h8 =>
        obtain ⟨k, pl, fs, pr, co, hi⟩ := b
        cases hk; cases h4; cases h5; cases h7; cases hv
        exact ⟨rfl, _, _, _, _, rfl, h1.folded _, h2.append (.single (phrase_ifElse h6 h8 hp)), by simp⟩
  | legacy a => cases hv

theorem run_done {arity : List (Block α) → Ins α → Nat × Nat} : ∀ {ops os : List (Op α)}
    {p p' : Printer α}, Done p os → run arity p ops = .ok p' → Done p' (os ++ ops)
  | [], os, p, p', hd, hr => by cases hr; simpa using hd
  | (i, h) :: ops, os, p, p', hd, hr => by
    unfold run at hr
    cases hv : visit arity (setHint p h) i with
    | error e => rw [hv] at hr; cases hr
    | ok q =>
      rw [hv] at hr
      have := run_done (visit_done hd hv) hr
      simpa using this

theorem fold_phrases {arity : List (Block α) → Ins α → Nat × Nat} {ops : List (Op α)}
    {ts : List (Tree α)} (h : fold arity ops = .ok ts) : Phrases ts ops := by
  unfold fold at h
  cases hr : run arity start ops with
  | error e => rw [hr] at h; cases h
  | ok p =>
    rw [hr] at h
    obtain ⟨-, b, bs, pre, post, hc, hb, hp, e⟩ := run_done done_start hr
    change finalize p = .ok ts at h
    unfold finalize at h
    rw [hc] at h
    cases bs with
    | cons => cases h
    | nil =>
      cases h
      cases hb
      simp only [List.nil_append] at e
      exact e ▸ hp

/-! ### Which operators can be printed -/

theorem run_append {arity : List (Block α) → Ins α → Nat × Nat} : ∀ (a b : List (Op α)) (p : Printer α),
    run arity p (a ++ b) = (run arity p a).bind fun p => run arity p b
  | [], b, p => rfl
  | (i, h) :: a, b, p => by
    simp only [List.cons_append, run]
    cases visit arity (setHint p h) i with
    | error e => rfl
    | ok q => exact run_append a b q

/-- Running succeeds and changes only what is in the last block. -/
def Runs (arity : List (Block α) → Ins α → Nat × Nat) (ops : List (Op α)) : Prop :=
  ∀ (b : Block α) (bs : List (Block α)), ∃ fs,
    run arity ⟨b :: bs, none⟩ ops = .ok ⟨{ b with folded := fs } :: bs, none⟩

theorem nested_runs (arity : List (Block α) → Ins α → Nat × Nat) {ops : List (Op α)} (h : Nested ops) :
    Runs arity ops := by
  induction h with
  | nil => exact fun b bs => ⟨b.folded, rfl⟩
  | @plain os a h _ ih =>
    intro b bs
    obtain ⟨fs, h1⟩ := ih b bs
    rw [run_append, h1]
    simp only [Except.bind, run, setHint_none, visit, handlePlain]
    exact ⟨_, rfl⟩
  | @block os ps a _ _ ih1 ih2 =>
    intro b bs
    obtain ⟨fs, h1⟩ := ih1 b bs
    obtain ⟨gs, h2⟩ := ih2 { kind := .block, plain := .ins (.block a) } ({ b with folded := fs } :: bs)
    rw [List.append_assoc, run_append, h1]
    simp only [Except.bind, List.cons_append, run, setHint_none, visit, pushBlock, Option.isSome_none,
      Bool.false_eq_true, if_false, run_append, h2, handleEnd, close, pushInst]
    exact ⟨_, rfl⟩
  | @iff os ps a h _ _ ih1 ih2 =>
    intro b bs
    obtain ⟨fs, h1⟩ := ih1 b bs
    obtain ⟨gs, h2⟩ := ih2 { kind := .iff, plain := .ins (.iff a), predicate := some (fs.drop (fs.length - 1)), hint := h } ({ b with folded := fs.dropLast } :: bs)
    rw [List.append_assoc, run_append, h1]
    simp only [Except.bind, List.cons_append, run, setHint_none, visit, pushIf, Option.isSome_none,
      Bool.false_eq_true, if_false, run_append, h2, handleEnd, close, pushInst]
    exact ⟨_, rfl⟩
  | @ifElse os ps qs a h _ _ _ ih1 ih2 ih3 =>
    intro b bs
    obtain ⟨fs, h1⟩ := ih1 b bs
    obtain ⟨gs, h2⟩ := ih2 { kind := .iff, plain := .ins (.iff a), predicate := some (fs.drop (fs.length - 1)), hint := h } ({ b with folded := fs.dropLast } :: bs)
    obtain ⟨ks, h3⟩ := ih3 { kind := .else_, plain := .ins (.iff a), predicate := some (fs.drop (fs.length - 1)), consequent := some gs, hint := h }
      ({ b with folded := fs.dropLast } :: bs)
    rw [List.append_assoc, List.append_assoc, run_append, h1]
    simp only [Except.bind, List.cons_append, run, setHint_none, visit, pushIf, Option.isSome_none,
      Bool.false_eq_true, if_false, run_append, h2, handleElse, h3, handleEnd, close, pushInst]
    exact ⟨_, rfl⟩

theorem Nested.append {os ps : List (Op α)} (h1 : Nested os) (h2 : Nested ps) : Nested (os ++ ps) := by
  induction h2 with
  | nil => simpa using h1
  | plain _ ih => rw [← List.append_assoc]; exact .plain ih
  | block _ h ih _ => simpa using Nested.block ih h
  | iff _ h ih _ => simpa using Nested.iff ih h
  | ifElse _ h h' ih _ _ => simpa using Nested.ifElse ih h h'

/-- No hints on instructions other than plain ones and `if`. -/
def HintsOk (os : List (Op α)) : Prop :=
  ∀ o ∈ os, o.2 = none ∨ (∃ a, o.1 = .plain a) ∨ ∃ a, o.1 = .iff a

theorem folded_nested {ts : List (Tok α)} {os : List (Op α)} (h : Folded ts os) (hh : HintsOk os) :
    Nested os := by
  induction h with
  | nil => exact .nil
  | @plain us ps ts os a h _ _ ih1 ih2 =>
    rw [← List.append_assoc]
    refine .plain ((ih1 ?_).append (ih2 ?_)) <;> exact fun o ho => hh o (by simp [ho])
  | @block us ps ts os a h _ _ ih1 ih2 =>
    have : h = none := by
      rcases hh (.block a, h) (by simp) with h | ⟨_, h⟩ | ⟨_, h⟩
      · exact h
      · cases h
      · cases h
    subst this
    have := Nested.block (a := a) (ih1 fun o ho => hh o (by simp [ho])) (ih2 fun o ho => hh o (by simp [ho]))
    simpa using this
  | @iff us ps cs os ts qs a h _ _ _ ih1 ih2 ih3 =>
    have := Nested.iff (a := a) (h := h) ((ih1 fun o ho => hh o (by simp [ho])).append
      (ih2 fun o ho => hh o (by simp [ho]))) (ih3 fun o ho => hh o (by simp [ho]))
    simpa using this
  | @ifElse us ps cs os ts qs es rs a h _ _ _ _ ih1 ih2 ih3 ih4 =>
    have := Nested.ifElse (a := a) (h := h) ((ih1 fun o ho => hh o (by simp [ho])).append
      (ih2 fun o ho => hh o (by simp [ho]))) (ih3 fun o ho => hh o (by simp [ho]))
      (ih4 fun o ho => hh o (by simp [ho]))
    simpa using this

theorem visit_hint {arity : List (Block α) → Ins α → Nat × Nat} {p p' : Printer α} {i : Ins α}
    {h : Option Bool} (hv : visit arity (setHint p h) i = .ok p') :
    h = none ∨ (∃ a, i = .plain a) ∨ ∃ a, i = .iff a := by
  cases h with
  | none => exact .inl rfl
  | some v =>
    cases i with
    | plain a => exact .inr (.inl ⟨a, rfl⟩)
    | iff a => exact .inr (.inr ⟨a, rfl⟩)
    | block a => cases hv
    | else_ => cases hv
    | end_ => cases hv
    | legacy a => cases hv

theorem run_hints {arity : List (Block α) → Ins α → Nat × Nat} : ∀ {ops : List (Op α)}
    {p p' : Printer α}, run arity p ops = .ok p' → HintsOk ops
  | [], _, _, _ => by intro o ho; cases ho
  | (i, h) :: ops, p, p', hr => by
    unfold run at hr
    cases hv : visit arity (setHint p h) i with
    | error e => rw [hv] at hr; cases hr
    | ok q =>
      rw [hv] at hr
      intro o ho
      rcases List.mem_cons.1 ho with rfl | ho
      · exact visit_hint hv
      · exact run_hints hr o ho

/-! ### The parser -/

variable [DecidableEq α]

/-- All these instructions are pushed. -/
def Parser.pushAll (s : Parser α) (os : List (Op α)) : Parser α :=
  { s with raw := s.raw ++ os.map (·.1), hints := s.hints ++ positions s.raw.length os }

theorem positions_append : ∀ (n : Nat) (a b : List (Op α)),
    positions n (a ++ b) = positions n a ++ positions (n + a.length) b
  | n, [], b => rfl
  | n, (i, none) :: a, b => by
    simp only [List.cons_append, positions, positions_append, List.length_cons]
    congr 2; omega
  | n, (i, some v) :: a, b => by
    simp only [List.cons_append, positions, positions_append, List.length_cons]
    congr 3; omega

omit [DecidableEq α] in
theorem pushHint_eq (s : Parser α) (i : Ins α) (h : Option Bool) : s.pushHint i h = s.pushAll [(i, h)] := by
  cases h <;> simp [Parser.pushHint, Parser.push, Parser.pushAll, positions]

omit [DecidableEq α] in
theorem push_eq (s : Parser α) (i : Ins α) : s.push i = s.pushAll [(i, none)] := pushHint_eq s i none

theorem pushAll_append (s : Parser α) (a b : List (Op α)) :
    (s.pushAll a).pushAll b = s.pushAll (a ++ b) := by
  simp [Parser.pushAll, positions_append]

omit [DecidableEq α] in
theorem pushAll_nil (s : Parser α) : s.pushAll [] = s := by simp [Parser.pushAll, positions]

/-- Instructions may come here. -/
def Open : List (Level α) → Prop
  | .iff .then_ :: _ => False
  | .iff .else_ :: _ => False
  | _ => True

theorem opened_open {s : Parser α} (h : Open s.stack) {t : Tok α} (ht : t ≠ .then_) :
    opened s t = openRest s t := by
  unfold opened
  split
  · rw [if_neg ht]
  · next h1 => rw [h1] at h; exact h.elim
  · next h1 => rw [h1] at h; exact h.elim
  · rfl

theorem parse_lp (s : Parser α) (t : Tok α) (ts : List (Tok α)) :
    parse s (.lp :: t :: ts) = (opened s t).bind fun s => parse s ts := by
  cases t <;> simp [parse]

theorem parse_rp {s : Parser α} {l : Level α} {st : List (Level α)} (h : s.stack = l :: st)
    (ts : List (Tok α)) : parse s (.rp :: ts) = (closed s l st).bind fun s => parse s ts := by
  rw [parse, h]

/-- An instruction with its annotation after a parenthesis. -/
theorem parse_head {s : Parser α} (hp : s.pending = none) (ho : Open s.stack) (i : Ins α)
    (h : Option Bool) (ts : List (Tok α)) :
    parse s (hintToks h ++ .lp :: .ins i :: ts) = parse (openIns { s with pending := h } i) ts := by
  cases h with
  | none =>
    rw [hintToks, List.nil_append, parse_lp, opened_open ho (by simp)]
    have : ({ s with pending := none } : Parser α) = s := by cases s; cases hp; rfl
    rw [this]; rfl
  | some v =>
    rw [hintToks, List.cons_append, List.cons_append, parse_lp, opened_open ho (by simp)]
    simp only [openRest, openHint, hp, Option.isSome_none, Bool.false_eq_true, if_false, Except.bind]
    rw [List.cons_append, parse_rp rfl]
    simp only [closed, closeLevel, Except.bind, List.nil_append]
    rw [parse_lp, opened_open (by exact ho) (by simp)]
    rfl

theorem parse_folded {ts : List (Tok α)} {os : List (Op α)} (h : Folded ts os) :
    ∀ (s : Parser α) (rest : List (Tok α)), s.pending = none → Open s.stack →
      parse s (ts ++ rest) = parse (s.pushAll os) rest := by
  induction h with
  | nil => intro s rest _ _; rw [pushAll_nil]; rfl
  | @plain us ps ts os a h _ _ ih1 ih2 =>
    intro s rest hp ho
    have e : us ++ (hintToks h ++ [.lp, .ins (.plain a)] ++ ts ++ [.rp]) ++ rest =
      us ++ (hintToks h ++ .lp :: .ins (.plain a) :: (ts ++ (.rp :: rest))) := by simp
    rw [e, ih1 s _ hp ho, parse_head (by exact hp) (by exact ho)]
    simp only [openIns]
    rw [ih2 _ _ (by exact rfl) (by exact trivial), parse_rp rfl]
    simp only [closed, closeLevel, Parser.checkHint, Parser.pushAll, Option.isSome_none,
      Bool.false_eq_true, if_false, Except.map, Except.bind]
    rw [pushHint_eq]
    congr 1
    cases s; cases hp
    simp only [Parser.pushAll, positions_append, List.map_append, List.append_assoc, List.length_append,
      List.length_map, Nat.add_assoc, List.length_cons, List.length_nil]
  | @block us ps ts os a h _ _ ih1 ih2 =>
    intro s rest hp ho
    have e : us ++ (hintToks h ++ [.lp, .ins (.block a)] ++ ts ++ [.rp]) ++ rest =
      us ++ (hintToks h ++ .lp :: .ins (.block a) :: (ts ++ (.rp :: rest))) := by simp
    rw [e, ih1 s _ hp ho, parse_head (by exact hp) (by exact ho), openIns]
    simp only [pushHint_eq]
    rw [ih2 _ _ (by exact rfl) (by exact trivial), parse_rp rfl]
    simp only [closed, closeLevel, Parser.checkHint, Parser.pushAll, Option.isSome_none,
      Bool.false_eq_true, if_false, Except.map, Except.bind]
    rw [pushHint_eq]
    have e2 : ps ++ ((Ins.block a, h) :: os ++ [(Ins.end_, none)]) =
      ((ps ++ [(Ins.block a, h)]) ++ os) ++ [(Ins.end_, none)] := by simp
    rw [e2]
    congr 1
    cases s; cases hp
    simp only [Parser.pushAll, positions_append, List.map_append, List.append_assoc, List.length_append,
      List.length_map, Nat.add_assoc, List.length_cons, List.length_nil]
  | @iff us ps cs os ts qs a h _ _ _ ih1 ih2 ih3 =>
    intro s rest hp ho
    have e : us ++ (hintToks h ++ [.lp, .ins (.iff a)] ++ cs ++ ([.lp, .then_] ++ ts ++ [.rp]) ++ [.rp]) ++ rest =
      us ++ (hintToks h ++ .lp :: .ins (.iff a) :: (cs ++ (.lp :: .then_ :: (ts ++ (.rp :: .rp :: rest))))) := by
      simp
    rw [e, ih1 s _ hp ho, parse_head (by exact hp) (by exact ho)]
    simp only [openIns]
    rw [ih2 _ _ (by exact rfl) (by exact trivial), parse_lp]
    simp only [opened, Parser.pushAll, if_true, openThen, Option.isSome_none, Bool.false_eq_true, if_false,
      Except.bind]
    simp only [pushHint_eq]
    rw [ih3 _ _ (by exact rfl) (by exact trivial), parse_rp rfl]
    simp only [closed, closeLevel, Parser.checkHint, Parser.pushAll, Option.isSome_none,
      Bool.false_eq_true, if_false, Except.map, Except.bind]
    rw [parse_rp rfl]
    simp only [closed, closeLevel, Parser.checkHint, Option.isSome_none,
      Bool.false_eq_true, if_false, Except.map, Except.bind]
    rw [push_eq]
    have e2 : ps ++ (os ++ (Ins.iff a, h) :: qs ++ [(Ins.end_, none)]) =
      (((ps ++ os) ++ [(Ins.iff a, h)]) ++ qs) ++ [(Ins.end_, none)] := by simp
    rw [e2]
    congr 1
    cases s; cases hp
    simp only [Parser.pushAll, positions_append, List.map_append, List.append_assoc, List.length_append,
      List.length_map, Nat.add_assoc, List.length_cons, List.length_nil]
  | @ifElse us ps cs os ts qs es rs a h _ _ _ _ ih1 ih2 ih3 ih4 =>
    intro s rest hp ho
    have e : us ++ (hintToks h ++ [.lp, .ins (.iff a)] ++ cs ++ ([.lp, .then_] ++ ts ++ [.rp]) ++
          ([.lp, .ins .else_] ++ es ++ [.rp]) ++ [.rp]) ++ rest =
      us ++ (hintToks h ++ .lp :: .ins (.iff a) :: (cs ++ (.lp :: .then_ :: (ts ++ (.rp ::
        .lp :: .ins .else_ :: (es ++ (.rp :: .rp :: rest))))))) := by
      simp
    rw [e, ih1 s _ hp ho, parse_head (by exact hp) (by exact ho)]
    simp only [openIns]
    rw [ih2 _ _ (by exact rfl) (by exact trivial), parse_lp]
    simp only [opened, Parser.pushAll, if_true, openThen, Option.isSome_none, Bool.false_eq_true, if_false,
      Except.bind]
    simp only [pushHint_eq]
    rw [ih3 _ _ (by exact rfl) (by exact trivial), parse_rp rfl]
    simp only [closed, closeLevel, Parser.checkHint, Parser.pushAll, Option.isSome_none,
      Bool.false_eq_true, if_false, Except.map, Except.bind]
    rw [parse_lp]
    simp only [opened, if_true, Except.bind]
    simp only [push_eq]
    rw [ih4 _ _ (by exact rfl) (by exact trivial), parse_rp rfl]
    simp only [closed, closeLevel, Parser.checkHint, Parser.pushAll, Option.isSome_none,
      Bool.false_eq_true, if_false, Except.map, Except.bind]
    rw [parse_rp rfl]
    simp only [closed, closeLevel, Parser.checkHint, Option.isSome_none,
      Bool.false_eq_true, if_false, Except.map, Except.bind]
    rw [push_eq]
    have e2 : ps ++ (os ++ (Ins.iff a, h) :: qs ++ (Ins.else_, none) :: rs ++ [(Ins.end_, none)]) =
      (((((ps ++ os) ++ [(Ins.iff a, h)]) ++ qs) ++ [(Ins.else_, none)]) ++ rs) ++ [(Ins.end_, none)] := by
      simp
    rw [e2]
    congr 1
    cases s; cases hp
    simp only [Parser.pushAll, positions_append, List.map_append, List.append_assoc, List.length_append,
      List.length_map, Nat.add_assoc, List.length_cons, List.length_nil]

theorem parse_flat : ∀ (os : List (Op α)) (s : Parser α) (rest : List (Tok α)), s.pending = none →
    s.stack = [] → parse s (printFlat os ++ rest) = parse (s.pushAll os) rest
  | [], s, rest, _, _ => by rw [pushAll_nil]; rfl
  | (i, h) :: os, s, rest, hp, hs => by
    have e : printFlat ((i, h) :: os) ++ rest = hintToks h ++ .ins i :: (printFlat os ++ rest) := by
      simp [printFlat]
    have e1 : parse s (hintToks h ++ .ins i :: (printFlat os ++ rest)) =
        parse (s.pushAll [(i, h)]) (printFlat os ++ rest) := by
      cases h with
      | none =>
        rw [hintToks, List.nil_append, parse, flat, hs]
        simp only [inIf, Bool.false_eq_true, if_false, Except.bind, hp, pushHint_eq]
        congr 1
        cases s; cases hp; cases hs; rfl
      | some v =>
        rw [hintToks, List.cons_append, List.cons_append, parse_lp, opened_open (by rw [hs]; trivial) (by simp)]
        simp only [openRest, openHint, hp, Option.isSome_none, Bool.false_eq_true, if_false, Except.bind]
        rw [List.cons_append, parse_rp rfl]
        simp only [closed, closeLevel, Except.bind, List.nil_append]
        rw [parse, flat, hs]
        simp only [inIf, Bool.false_eq_true, if_false, Except.bind, pushHint_eq]
        congr 1
        cases s; cases hp; cases hs; rfl
    rw [e, e1, parse_flat os _ _ (by exact hp) (by exact hs), pushAll_append]
    rfl

theorem parse_end {s : Parser α} {rest : List (Tok α)} (hp : s.pending = none) (hs : s.stack = [])
    (hr : AtEnd rest) : parse s rest = .ok (s, rest) := by
  rcases hr with rfl | ⟨ts, rfl⟩
  · rw [parse, hs]; simp [Parser.checkHint, hp, Except.map]
  · rw [parse, hs]; simp [Parser.checkHint, hp, Except.map]

end Verif.Fold
