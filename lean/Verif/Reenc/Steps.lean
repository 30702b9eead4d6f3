import Verif.Reenc.End
import Verif.Items.Codec
/-! Sequences of operators in bytes, apart from any reader. -/
namespace Verif.Reader

theorem Reader.eof_iff {r : Reader} : r.eof = true ↔ r.rest = [] := by
  simp [Reader.eof, Reader.rest, Reader.maxPosition]

end Verif.Reader

namespace Verif.Instr
open Verif.Reader Verif.Leb Verif.Types Spec

/-- The control stack after an instruction. -/
def visitI (s : ControlStack) : Enc.Instr → ControlStack
  | .block .block _ => s.push .block
  | .block .loop _ => s.push .loop
  | .block .if_ _ => s.push .if_
  | .else_ => s.pop.push .else_
  | .block .try_ _ => s.push .legacyTry
  | .catch_ _ => s.pop.push .legacyCatch
  | .catchAll => s.pop.push .legacyCatchAll
  | .tryTable .. => s.push .tryTable
  | .delegate _ => s.pop
  | .end_ => s.pop
  | _ => s

theorem visit_corr {s : ControlStack} {i : Enc.Instr} {op : Operator} (h : Corr i op) :
    s.visit op = visitI s i := by
  cases i <;> cases op <;> first
    | (exfalso; exact h)
    | rfl
    | (obtain ⟨rfl, -⟩ := h; rename_i o _ _; cases o <;> rfl)

theorem corr_end {op : Operator} (h : Corr .end_ op) : op = .end_ := by
  cases op <;> first | rfl | exact h.elim

theorem end_corr {i : Enc.Instr} (h : Corr i .end_) : i = .end_ := by
  cases i <;> first | rfl | exact h.elim

/-- The bytes are read as these instructions, one after the other, from the one control stack
to the other. -/
inductive Steps (f : Features) : ControlStack → List UInt8 → List Enc.Instr → ControlStack → Prop
  | nil (st) : Steps f st [] [] st
  | cons {st b i bs is st'} (k : FrameKind) : st.top = some k → b ≠ [] →
      DecP (visitOperator f st.top) b (Corr i) → Fits f i → FrameOk k (tok i) →
      (i = .end_ → b = [0x0B]) →
      Steps f (visitI st i) bs is st' → Steps f st (b ++ bs) (i :: is) st'

variable {f : Features}

theorem Steps.append {st bs is st' bs' is' st''} (h : Steps f st bs is st')
    (h' : Steps f st' bs' is' st'') : Steps f st (bs ++ bs') (is ++ is') st'' := by
  induction h with
  | nil => exact h'
  | cons k h1 h2 h3 h4 h5 h6 _ ih =>
    rw [List.append_assoc]
    exact .cons k h1 h2 h3 h4 h5 h6 (ih h')

/-- One read. -/
theorem step_read {s s' : OperatorsReader} {op : Operator} (h : s.read f = .ok (op, s')) :
    ∃ (b : List UInt8) (i : Enc.Instr) (k : FrameKind), s.stack.top = some k ∧ b ≠ [] ∧
      DecP (visitOperator f s.stack.top) b (Corr i) ∧ Fits f i ∧ FrameOk k (tok i) ∧
      (i = .end_ → b = [0x0B]) ∧ s.reader.rest = b ++ s'.reader.rest ∧
      s'.reader = s.reader.advance b.length ∧ s'.stack = visitI s.stack i ∧ Corr i op := by
  unfold OperatorsReader.read at h
  cases hv : visitOperator f s.stack.top s.reader with
  | error e => rw [hv] at h; cases h
  | ok x =>
    obtain ⟨op', r'⟩ := x
    rw [hv] at h
    cases h
    obtain ⟨k, hk1, hk2⟩ := visitOperator_allowed hv
    obtain ⟨b, bytes, h1, h2, h3⟩ := visitOperator_same f _ _ _ _ hv
    obtain ⟨op2, h4, i, h5, h6, h7⟩ := h3 s.reader _ h1
    refine ⟨b :: bytes, i, k, hk1, nofun, h3.mono ?_, h7, ?_, ?_, h1, h2, visit_corr h5, h5⟩
    · rintro op3 ⟨j, j1, j2, -⟩
      rw [Reenc.corr_right h5 j1]
      exact j2
    · rw [← corr_tok h5]; exact hk2
    · rintro rfl
      obtain rfl := corr_end h5
      obtain ⟨h8, t, h9⟩ := visitOperator_end hv
      rw [h1] at h9
      rw [h8] at h2
      have := congrArg (fun r => r.rest.length) h2
      simp only [Reader.rest_advance, h1, List.length_drop, List.length_append, List.length_cons] at this
      have hb : bytes = [] := List.length_eq_zero_iff.1 (by omega)
      subst hb
      simp only [List.cons_append, List.nil_append, List.cons.injEq] at h9
      rw [h9.1]

/-- What was collected is a sequence of steps. -/
theorem steps_of_collect : ∀ {n : Nat} {s s' : OperatorsReader} {ops : List Operator},
    s.reader.rest.length ≤ n → s.collectFrom f n = .ok (ops, s') →
    ∃ is, Steps f s.stack s.reader.rest is s'.stack ∧ List.Forall₂ Corr is ops ∧
      s'.reader.eof = true
  | 0, s, s', ops, hn, h => by
    unfold OperatorsReader.collectFrom at h
    cases h
    have hr : s.reader.rest = [] := List.length_eq_zero_iff.1 (by omega)
    refine ⟨[], ?_, .nil, ?_⟩
    · rw [hr]; exact .nil _
    · exact Reader.eof_iff.2 hr
  | n + 1, s, s', ops, hn, h => by
    unfold OperatorsReader.collectFrom at h
    split at h
    · next he =>
      cases h
      have hr := Reader.eof_iff.1 he
      exact ⟨[], by rw [hr]; exact .nil _, .nil, he⟩
    · cases hr : s.read f with
      | error e => rw [hr] at h; cases h
      | ok x =>
        obtain ⟨op, s1⟩ := x
        rw [hr] at h
        dsimp only at h
        cases hc : s1.collectFrom f n with
        | error e => rw [hc] at h; cases h
        | ok y =>
          obtain ⟨ops1, s2⟩ := y
          rw [hc] at h
          cases h
          obtain ⟨b, i, k, h1, h2, h3, h4, h5, h6, h7, h8, h9, h10⟩ := step_read hr
          have hb : b.length ≠ 0 := fun h => h2 (List.length_eq_zero_iff.1 h)
          obtain ⟨is, g1, g2, g3⟩ := steps_of_collect (n := n) (by
            rw [h7, List.length_append] at hn; omega) hc
          refine ⟨i :: is, ?_, .cons h10 g2, g3⟩
          rw [h7]
          rw [h9] at g1
          exact .cons k h1 h2 h3 h4 h5 h6 g1

theorem read_of_step {s : OperatorsReader} {b tail : List UInt8} {i : Enc.Instr}
    (h : DecP (visitOperator f s.stack.top) b (Corr i)) (hr : s.reader.rest = b ++ tail) :
    ∃ op, s.read f = .ok (op, ⟨s.reader.advance b.length, visitI s.stack i⟩) ∧ Corr i op := by
  obtain ⟨op, h1, h2⟩ := h s.reader tail hr
  refine ⟨op, ?_, h2⟩
  unfold OperatorsReader.read
  rw [h1, ← visit_corr h2]

/-- A sequence of steps is collected wherever it stands alone. -/
theorem collect_of_steps {st bs is st'} (h : Steps f st bs is st') :
    ∀ {n : Nat} {s : OperatorsReader}, s.stack = st → s.reader.rest = bs → bs.length ≤ n →
    ∃ ops s', s.collectFrom f n = .ok (ops, s') ∧ List.Forall₂ Corr is ops ∧ s'.stack = st' ∧
      s'.reader.eof = true := by
  induction h with
  | nil st =>
    intro n s hs hr _
    have he : s.reader.eof = true := Reader.eof_iff.2 hr
    refine ⟨[], s, ?_, .nil, hs, he⟩
    cases n with
    | zero => rfl
    | succ n => unfold OperatorsReader.collectFrom; rw [if_pos he]
  | @cons st b i bs is st' k h1 h2 h3 h4 h5 h6 _ ih =>
    intro n s hs hr hn
    subst hs
    have hb : b.length ≠ 0 := fun h => h2 (List.length_eq_zero_iff.1 h)
    rw [List.length_append] at hn
    cases n with
    | zero => omega
    | succ n =>
      have he : ¬ s.reader.eof = true := by
        intro he
        rw [Reader.eof_iff.1 he] at hr
        have := congrArg List.length hr
        simp only [List.length_nil, List.length_append] at this
        omega
      obtain ⟨op, g1, g2⟩ := read_of_step h3 hr
      obtain ⟨ops, s', g3, g4, g5, g6⟩ := ih (n := n)
        (s := ⟨s.reader.advance b.length, visitI s.stack i⟩) rfl (by simp [hr]) (by omega)
      refine ⟨op :: ops, s', ?_, .cons g2 g4, g5, g6⟩
      unfold OperatorsReader.collectFrom
      rw [if_neg he, g1]
      simp only [g3]

/-! ### Constant expressions -/

theorem steps_of_skip : ∀ {n : Nat} {s s' : OperatorsReader},
    Items.skipConstExprFrom f n s = .ok s' →
    ∃ bs is, Steps f s.stack bs (is ++ [.end_]) s'.stack ∧ s.reader.rest = bs ++ s'.reader.rest ∧
      s'.reader = s.reader.advance bs.length ∧ Enc.Instr.end_ ∉ is ∧ s'.stack.top = none
  | 0, s, s', h => by cases h
  | n + 1, s, s', h => by
    unfold Items.skipConstExprFrom at h
    cases hr : s.read f with
    | error e => rw [hr] at h; cases h
    | ok x =>
      obtain ⟨op, s1⟩ := x
      obtain ⟨b, i, k, h1, h2, h3, h4, h5, h6, h7, h8, h9, h10⟩ := step_read hr
      by_cases ho : op = .end_
      · subst ho
        obtain rfl := end_corr h10
        rw [hr] at h
        dsimp only at h
        split at h
        · cases h
        · next ht =>
          cases h
          refine ⟨b, [], ?_, h7, h8, nofun, by simpa using ht⟩
          have := Steps.cons (f := f) k h1 h2 h3 h4 h5 h6 (.nil _)
          rw [List.append_nil] at this
          rw [h9]
          exact this
      · have h : Items.skipConstExprFrom f (n + 1) s = .ok s' := by
          rw [Items.skipConstExprFrom]; exact h
        rw [Items.skip_step hr ho] at h
        obtain ⟨bs, is, g1, g2, g3, g4, g5⟩ := steps_of_skip h
        refine ⟨b ++ bs, i :: is, ?_, ?_, ?_, ?_, g5⟩
        · rw [h9] at g1
          exact .cons k h1 h2 h3 h4 h5 h6 g1
        · rw [h7, g2, List.append_assoc]
        · rw [g3, h8, Reader.advance_advance, List.length_append]
        · intro hm
          rcases List.mem_cons.1 hm with rfl | hm
          · exact ho (corr_end h10)
          · exact g4 hm

theorem skip_of_steps {js : List Enc.Instr} {st bs st'} (h : Steps f st bs js st') :
    ∀ {is : List Enc.Instr} {n : Nat} {s : OperatorsReader} {tail : List UInt8},
    js = is ++ [.end_] → Enc.Instr.end_ ∉ is → st'.top = none → s.stack = st →
    s.reader.rest = bs ++ tail → bs.length ≤ n →
    ∃ s', Items.skipConstExprFrom f n s = .ok s' ∧ s'.stack = st' ∧
      s'.reader = s.reader.advance bs.length := by
  induction h with
  | nil => intro is n s tail hj; simp at hj
  | @cons st b i bs is' st' k h1 h2 h3 h4 h5 h6 hst ih =>
    intro is n s tail hj hend ht hs hr hn
    subst hs
    have hb : b.length ≠ 0 := fun h => h2 (List.length_eq_zero_iff.1 h)
    rw [List.length_append] at hn
    cases n with
    | zero => omega
    | succ n =>
      rw [List.append_assoc] at hr
      obtain ⟨op, g1, g2⟩ := read_of_step h3 hr
      cases is with
      | nil =>
        simp only [List.nil_append, List.cons.injEq] at hj
        obtain ⟨rfl, rfl⟩ := hj
        obtain rfl := corr_end g2
        cases hst
        exact ⟨_, Items.skip_end g1 ht, rfl, by rw [List.append_nil]⟩
      | cons j is =>
        simp only [List.cons_append, List.cons.injEq] at hj
        obtain ⟨rfl, rfl⟩ := hj
        have ho : op ≠ .end_ := by
          rintro rfl
          rw [end_corr g2] at hend
          exact hend (List.mem_cons_self ..)
        obtain ⟨s', g3, g4, g5⟩ := ih (n := n) (tail := tail)
          (s := ⟨s.reader.advance b.length, visitI s.stack i⟩) rfl
          (fun h => hend (List.mem_cons_of_mem _ h)) ht rfl (by simp [hr]) (by omega)
        refine ⟨s', by rw [Items.skip_step g1 ho]; exact g3, g4, ?_⟩
        rw [g5, Reader.advance_advance, List.length_append]

/-- Constant expressions can be read again. -/
theorem twin_skipConst : Twin (Items.skipConstExpr f) (Items.skipConstExpr f) (fun _ _ => True) := by
  intro r a r' h
  unfold Items.skipConstExpr at h
  cases hs : Items.skipConstExprFrom f (r.bytesRemaining + 1) (OperatorsReader.new r) with
  | error e => rw [hs] at h; cases h
  | ok s =>
    rw [hs] at h
    cases h
    obtain ⟨bs, is, g1, g2, g3, g4, g5⟩ := steps_of_skip hs
    refine ⟨bs, g2, g3, ?_⟩
    intro q tail hq
    obtain ⟨s', k1, k2, k3⟩ := skip_of_steps g1 (n := q.bytesRemaining + 1)
      (s := OperatorsReader.new q) rfl g4 g5 rfl hq (by
        rw [Reader.bytesRemaining_eq, hq]; simp; omega)
    refine ⟨(), ?_, True.intro⟩
    unfold Items.skipConstExpr
    rw [k1]
    dsimp only
    rw [k3]
    rfl

end Verif.Instr

namespace Verif.Reenc
open Verif.Reader Verif.Leb Verif.Instr Verif.Instr.Spec Spec

variable {f : Instr.Features} {m : Maps}

theorem visitI_rename (st : ControlStack) (i : Enc.Instr) : visitI st (rename m i) = visitI st i := by
  cases i <;> first
    | rfl
    | (rename_i o _; cases o <;> rfl)

theorem rename_end {i : Enc.Instr} (h : rename m i = .end_) : i = .end_ := by
  cases i <;> first | rfl | cases h

/-- The renamed instructions can be encoded and read in the same way. -/
theorem Steps.rename (hm : MapsFit m f) {st bs is st'} (h : Steps f st bs is st') :
    ∃ bs', Enc.encodeSeq (is.map (rename m)) = some bs' ∧
      Steps f st bs' (is.map (rename m)) st' := by
  induction h with
  | nil st => exact ⟨[], rfl, .nil st⟩
  | @cons st b i bs is st' k h1 h2 h3 h4 h5 h6 _ ih =>
    obtain ⟨bs', e1, e2⟩ := ih
    have h4' := fits_rename hm h4
    obtain ⟨b', e3⟩ := fits_encode h4'
    refine ⟨b' ++ bs', ?_, ?_⟩
    · rw [List.map_cons, Enc.encodeSeq, e3, e1]; rfl
    · have h5' : FrameOk k (tok (Spec.rename m i)) := by rw [tok_rename]; exact h5
      refine Steps.cons k h1 (encode_ne_nil e3) ?_ h4' h5' ?_ ?_
      · rw [h1]; exact decP_instr f k _ _ e3 h4' h5'
      · intro h
        rw [h] at e3
        cases e3; rfl
      · rw [visitI_rename]; exact e2

/-- The loop of `parse_function_body` writes the renamed instructions. -/
theorem instructions_of_steps {st bs is st'} (h : Steps f st bs is st') :
    ∀ {n : Nat} {s : OperatorsReader}, s.stack = st → s.reader.rest = bs → bs.length ≤ n →
    instructionsFrom m f n s = Enc.encodeSeq (is.map (rename m)) := by
  induction h with
  | nil st =>
    intro n s hs hr _
    have he : s.reader.eof = true := Reader.eof_iff.2 hr
    cases n with
    | zero => rfl
    | succ n => unfold instructionsFrom; rw [if_pos he]; rfl
  | @cons st b i bs is st' k h1 h2 h3 h4 h5 h6 _ ih =>
    intro n s hs hr hn
    subst hs
    have hb : b.length ≠ 0 := fun h => h2 (List.length_eq_zero_iff.1 h)
    rw [List.length_append] at hn
    cases n with
    | zero => omega
    | succ n =>
      have he : ¬ s.reader.eof = true := by
        intro he
        rw [Reader.eof_iff.1 he] at hr
        have := congrArg List.length hr
        simp only [List.length_nil, List.length_append] at this
        omega
      obtain ⟨op, g1, g2⟩ := read_of_step h3 hr
      have := ih (n := n) (s := ⟨s.reader.advance b.length, visitI s.stack i⟩) rfl (by simp [hr])
        (by omega)
      unfold instructionsFrom
      rw [if_neg he, List.map_cons, Enc.encodeSeq]
      simp only [parseInstruction, g1, instruction_corr m g2]
      rw [← this]
      rfl

/-- Every operator of the body was read. -/
theorem collect_of_instructions : ∀ {n : Nat} {s : OperatorsReader} {b : List UInt8},
    instructionsFrom m f n s = some b → ∃ ops s', s.collectFrom f n = .ok (ops, s')
  | 0, s, b, _ => ⟨[], s, rfl⟩
  | n + 1, s, b, h => by
    unfold instructionsFrom at h
    unfold OperatorsReader.collectFrom
    split at h
    · next he => exact ⟨[], s, by rw [if_pos he]⟩
    · next he =>
      rw [if_neg he]
      cases hr : s.read f with
      | error e => simp [parseInstruction, hr] at h
      | ok x =>
        obtain ⟨op, s1⟩ := x
        cases hi : instruction m op with
        | none => simp [parseInstruction, hr, hi] at h
        | some i =>
          cases hb : i.encode with
          | none => simp [parseInstruction, hr, hi, hb] at h
          | some bi =>
            cases hn : instructionsFrom m f n s1 with
            | none => simp [parseInstruction, hr, hi, hb, hn] at h
            | some bn =>
              obtain ⟨ops, s', e⟩ := collect_of_instructions hn
              exact ⟨op :: ops, s', by simp only [e]⟩

/-- The loop of `const_expr` writes the renamed instructions before the final `end`. -/
theorem constExpr_of_steps {js : List Enc.Instr} {st bs st'} (h : Steps f st bs js st') :
    ∀ {is : List Enc.Instr} {n : Nat} {s : OperatorsReader},
    js = is ++ [.end_] → Enc.Instr.end_ ∉ is → s.stack = st → s.reader.rest = bs → bs.length < n →
    constExprFrom m f n s = Enc.encodeSeq (is.map (rename m)) := by
  induction h with
  | nil => intro is n s hj; simp at hj
  | @cons st b i bs is' st' k h1 h2 h3 h4 h5 h6 hst ih =>
    intro is n s hj hend hs hr hn
    subst hs
    have hb : b.length ≠ 0 := fun h => h2 (List.length_eq_zero_iff.1 h)
    rw [List.length_append] at hn
    cases n with
    | zero => omega
    | succ n =>
      cases is with
      | nil =>
        simp only [List.nil_append, List.cons.injEq] at hj
        obtain ⟨rfl, rfl⟩ := hj
        cases hst
        rw [h6 rfl] at hr
        unfold constExprFrom
        rw [if_pos (by simp [isEndThenEof, hr])]
        rfl
      | cons j is =>
        simp only [List.cons_append, List.cons.injEq] at hj
        obtain ⟨rfl, rfl⟩ := hj
        obtain ⟨op, g1, g2⟩ := read_of_step h3 hr
        have hne : ¬ isEndThenEof s.reader = true := by
          intro h
          have h : s.reader.rest = [0x0B] := by simpa [isEndThenEof] using h
          -- then the byte is read as `end`
          obtain ⟨op2, q1, q2⟩ := decP_instr f k .end_ [0x0B] rfl True.intro
            ⟨nofun, nofun, nofun⟩ s.reader [] h
          obtain ⟨op3, q3, q4⟩ := h3 s.reader _ hr
          rw [h1, q1] at q3
          injection q3 with q3
          injection q3 with q3
          obtain rfl := corr_end q2
          rw [← q3] at q4
          rw [end_corr q4] at hend
          exact hend (List.mem_cons_self ..)
        have := ih (n := n) (s := ⟨s.reader.advance b.length, visitI s.stack i⟩) rfl
          (fun h => hend (List.mem_cons_of_mem _ h)) rfl (by simp [hr]) (by omega)
        unfold constExprFrom
        rw [if_neg hne, List.map_cons, Enc.encodeSeq]
        simp only [parseInstruction, g1, instruction_corr m g2]
        rw [← this]
        rfl

end Verif.Reenc
