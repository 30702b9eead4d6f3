import Verif.Instr.Seq
/-! Operators that the reader accepts are allowed in the current frame. -/
namespace Verif.Instr
open Verif.Reader Verif.Leb Verif.Framing Verif.Types Spec

/-- Every operator that the reader returns satisfies `P`. -/
def All (P : Operator → Prop) (m : R Operator) : Prop := ∀ r op r', m r = .ok (op, r') → P op

theorem All.pure {P : Operator → Prop} {op : Operator} (h : P op) : All P (pure op) := by
  intro r op' r' he
  cases he; exact h

theorem All.bind {α : Type} {P : Operator → Prop} {m : R α} {g : α → R Operator}
    (h : ∀ a, All P (g a)) : All P (m >>= g) := by
  intro r op r' he
  rw [bind_apply] at he
  cases hm : m r with
  | error e => rw [hm] at he; cases he
  | ok x => rw [hm] at he; exact h _ _ _ _ he

theorem All.fmap {α : Type} {P : Operator → Prop} {m : R α} {g : α → Operator} (h : ∀ a, P (g a)) :
    All P (g <$> m) := All.bind fun a => .pure (h a)

theorem All.fail {P : Operator → Prop} {m : String} {pos : Nat} : All P (R.fail m pos) := by
  intro r op r' he; cases he

theorem All.ite {P : Operator → Prop} {c : Prop} [Decidable c] {m n : R Operator}
    (h1 : All P m) (h2 : All P n) : All P (if c then m else n) := by
  split <;> assumption

def Neutral (op : Operator) : Prop := tokOp op = .other

theorem neutral_read2 {g : BitVec 32 → BitVec 32 → Operator} (h : ∀ i j, Neutral (g i j)) :
    All Neutral (read2 g) := .bind fun i => .bind fun j => .pure (h i j)

theorem neutral_cast {g : BitVec 32 → RefType → RefType → Operator}
    (h : ∀ d a b, Neutral (g d a b)) : All Neutral (readCast g) := by
  refine .bind fun pos => .bind fun fl => .bind fun d => ?_
  split
  · exact .fail
  · refine .bind fun x => ?_
    split
    · exact .fail
    · refine .bind fun y => ?_
      split
      · exact .fail
      · exact .pure (h _ _ _)

theorem neutral_memLane {f : Features} {a : UInt8} {g : MemArg → UInt8 → Operator}
    (h : ∀ i j, Neutral (g i j)) : All Neutral (readMemLane f a g) :=
  .bind fun i => .bind fun j => .pure (h i j)

theorem neutral_atomic {g : Ordering → BitVec 32 → Operator} (h : ∀ o i, Neutral (g o i)) :
    All Neutral (readAtomic g) := .bind fun i => .bind fun j => .pure (h i j)

theorem neutral_atomic2 {g : Ordering → BitVec 32 → BitVec 32 → Operator}
    (h : ∀ o i j, Neutral (g o i j)) : All Neutral (readAtomic2 g) :=
  .bind fun o => .bind fun i => .bind fun j => .pure (h o i j)

theorem neutral_select : All Neutral readTypedSelect :=
  .bind fun n => .ite (.fmap fun _ => rfl) (.fmap fun _ => rfl)

theorem visitFb_neutral (pos code : Nat) : All Neutral (visitFb pos code) := by
  unfold visitFb
  split <;> first
    | exact .pure rfl
    | exact .fmap fun _ => rfl
    | exact neutral_read2 fun _ _ => rfl
    | exact neutral_cast fun _ _ _ => rfl
    | exact .fail

theorem visitFc_neutral (pos code : Nat) : All Neutral (visitFc pos code) := by
  unfold visitFc
  split <;> first
    | exact .pure rfl
    | exact .fmap fun _ => rfl
    | exact neutral_read2 fun _ _ => rfl
    | exact .fail

theorem visitFd4_neutral (f : Features) (pos code : Nat) : All Neutral (visitFd4 f pos code) := by
  unfold visitFd4
  split <;> first
    | exact .pure rfl
    | exact .fmap fun _ => rfl
    | exact neutral_memLane fun _ _ => rfl
    | exact .fail

theorem visitFd3_neutral (f : Features) (pos code : Nat) : All Neutral (visitFd3 f pos code) := by
  unfold visitFd3
  split <;> first
    | exact .pure rfl
    | exact .fmap fun _ => rfl
    | exact neutral_memLane fun _ _ => rfl
    | exact visitFd4_neutral f pos _

theorem visitFd2_neutral (f : Features) (pos code : Nat) : All Neutral (visitFd2 f pos code) := by
  unfold visitFd2
  split <;> first
    | exact .pure rfl
    | exact .fmap fun _ => rfl
    | exact neutral_memLane fun _ _ => rfl
    | exact visitFd3_neutral f pos _

theorem visitFd1_neutral (f : Features) (pos code : Nat) : All Neutral (visitFd1 f pos code) := by
  unfold visitFd1
  split <;> first
    | exact .pure rfl
    | exact .fmap fun _ => rfl
    | exact neutral_memLane fun _ _ => rfl
    | exact visitFd2_neutral f pos _

theorem visitFd_neutral (f : Features) (pos code : Nat) : All Neutral (visitFd f pos code) := by
  unfold visitFd
  split <;> first
    | exact .pure rfl
    | exact .fmap fun _ => rfl
    | exact neutral_memLane fun _ _ => rfl
    | exact visitFd1_neutral f pos _

theorem visitFe_neutral (f : Features) (pos code : Nat) : All Neutral (visitFe f pos code) := by
  unfold visitFe
  split <;> first
    | exact .pure rfl
    | exact .fmap fun _ => rfl
    | exact neutral_atomic fun _ _ => rfl
    | exact neutral_atomic2 fun _ _ _ => rfl
    | exact .bind fun _ => .ite .fail (.pure rfl)
    | exact .fail

theorem All.mono {P Q : Operator → Prop} {m : R Operator} (h : All P m) (hpq : ∀ op, P op → Q op) :
    All Q m := fun r op r' he => hpq _ (h r op r' he)

/-- Allowed in the frame `k`. -/
def Allowed (k : FrameKind) (op : Operator) : Prop := FrameOk k (tokOp op)

theorem neutral_allowed {k : FrameKind} {op : Operator} (h : Neutral op) : Allowed k op := by
  unfold Allowed
  rw [h]
  exact frameOk_free (by decide) (by decide) (by decide) (by decide)

theorem allowed_opens {k : FrameKind} (o : Blk) (t : BlockType) : Allowed k (.block o t) := by
  cases o <;> exact frameOk_free nofun nofun nofun nofun

theorem allowed_tryTable {k : FrameKind} : All (Allowed k) readTryTable :=
  .bind fun _ => .bind fun _ => .pure (frameOk_free nofun nofun nofun nofun)

theorem All.guard {P : Operator → Prop} {g : R Unit} {m : R Operator} {c : Prop}
    (hg : ∀ r x, g r = .ok x → c) (h : c → All P m) : All P (do g; m) := by
  intro r op r' he
  rw [bind_apply] at he
  cases hm : g r with
  | error e => rw [hm] at he; cases he
  | ok x => rw [hm] at he; exact h (hg _ _ hm) _ _ _ he

theorem expectFrame_ok {k want : FrameKind} {found : String} {r : Reader} {x : Unit × Reader}
    (h : expectFrame k want found r = .ok x) : k = want := by
  unfold expectFrame at h
  split at h
  · assumption
  · cases h

theorem expectCatchFrame_ok {k : FrameKind} {found : String} {r : Reader} {x : Unit × Reader}
    (h : expectCatchFrame k found r = .ok x) : k = .legacyTry ∨ k = .legacyCatch := by
  unfold expectCatchFrame at h
  split at h
  · next h1 => exact .inr (expectFrame_ok h1)
  · exact .inl (expectFrame_ok h)

theorem visitCode3_allowed (f : Features) (k : FrameKind) (pos code : Nat) :
    All (Allowed k) (visitCode3 f k pos code) := by
  unfold visitCode3
  split <;> first
    | exact All.mono (P := Neutral) (.pure rfl) fun _ h => neutral_allowed h
    | exact All.mono (P := Neutral) (.fmap fun _ => rfl) fun _ h => neutral_allowed h
    | exact All.mono (neutral_read2 fun _ _ => rfl) fun _ h => neutral_allowed h
    | exact All.mono neutral_select fun _ h => neutral_allowed h
    | exact .pure (frameOk_free nofun nofun nofun nofun)
    | exact .fmap fun _ => allowed_opens _ _
    | exact .fail
    | exact .bind fun _ => All.mono (visitFb_neutral _ _) fun _ h => neutral_allowed h
    | exact .bind fun _ => All.mono (visitFc_neutral _ _) fun _ h => neutral_allowed h
    | exact .bind fun _ => All.mono (visitFd_neutral _ _ _) fun _ h => neutral_allowed h
    | exact .bind fun _ => All.mono (visitFe_neutral _ _ _) fun _ h => neutral_allowed h
    | exact .bind fun _ => .fmap fun _ => neutral_allowed rfl
    | exact .bind fun _ => .bind fun _ => .pure (neutral_allowed rfl)
    | exact .bind fun _ => .bind fun _ => .fmap fun _ => neutral_allowed rfl
    | exact allowed_tryTable
    | exact .bind fun _ => .fmap fun _ => allowed_opens _ _
    | exact .guard (fun _ _ h => expectFrame_ok h) fun hk =>
        .pure ⟨fun _ => hk, by simp [tokOp], by simp [tokOp]⟩
    | exact .guard (fun _ _ h => expectFrame_ok h) fun hk =>
        .fmap fun _ => ⟨by simp [tokOp], by simp [tokOp], fun _ => hk⟩
    | exact .bind fun _ => .guard (fun _ _ h => expectCatchFrame_ok h) fun hk =>
        .pure ⟨by simp [tokOp], fun _ => hk, by simp [tokOp]⟩
    | exact .bind fun _ => .guard (fun _ _ h => expectCatchFrame_ok h) fun hk =>
        .fmap fun _ => ⟨by simp [tokOp], fun _ => hk, by simp [tokOp]⟩

theorem visitCode2_allowed (f : Features) (k : FrameKind) (pos code : Nat) :
    All (Allowed k) (visitCode2 f k pos code) := by
  unfold visitCode2
  split <;> first
    | exact All.mono (P := Neutral) (.pure rfl) fun _ h => neutral_allowed h
    | exact All.mono (P := Neutral) (.fmap fun _ => rfl) fun _ h => neutral_allowed h
    | exact All.mono (neutral_read2 fun _ _ => rfl) fun _ h => neutral_allowed h
    | exact All.mono neutral_select fun _ h => neutral_allowed h
    | exact .pure (frameOk_free nofun nofun nofun nofun)
    | exact .fmap fun _ => allowed_opens _ _
    | exact visitCode3_allowed f k pos _
    | exact .bind fun _ => All.mono (visitFb_neutral _ _) fun _ h => neutral_allowed h
    | exact .bind fun _ => All.mono (visitFc_neutral _ _) fun _ h => neutral_allowed h
    | exact .bind fun _ => All.mono (visitFd_neutral _ _ _) fun _ h => neutral_allowed h
    | exact .bind fun _ => All.mono (visitFe_neutral _ _ _) fun _ h => neutral_allowed h
    | exact .bind fun _ => .fmap fun _ => neutral_allowed rfl
    | exact .bind fun _ => .bind fun _ => .pure (neutral_allowed rfl)
    | exact .bind fun _ => .bind fun _ => .fmap fun _ => neutral_allowed rfl
    | exact allowed_tryTable
    | exact .bind fun _ => .fmap fun _ => allowed_opens _ _
    | exact .guard (fun _ _ h => expectFrame_ok h) fun hk =>
        .pure ⟨fun _ => hk, by simp [tokOp], by simp [tokOp]⟩
    | exact .guard (fun _ _ h => expectFrame_ok h) fun hk =>
        .fmap fun _ => ⟨by simp [tokOp], by simp [tokOp], fun _ => hk⟩
    | exact .bind fun _ => .guard (fun _ _ h => expectCatchFrame_ok h) fun hk =>
        .pure ⟨by simp [tokOp], fun _ => hk, by simp [tokOp]⟩
    | exact .bind fun _ => .guard (fun _ _ h => expectCatchFrame_ok h) fun hk =>
        .fmap fun _ => ⟨by simp [tokOp], fun _ => hk, by simp [tokOp]⟩

theorem visitCode1_allowed (f : Features) (k : FrameKind) (pos code : Nat) :
    All (Allowed k) (visitCode1 f k pos code) := by
  unfold visitCode1
  split <;> first
    | exact All.mono (P := Neutral) (.pure rfl) fun _ h => neutral_allowed h
    | exact All.mono (P := Neutral) (.fmap fun _ => rfl) fun _ h => neutral_allowed h
    | exact All.mono (neutral_read2 fun _ _ => rfl) fun _ h => neutral_allowed h
    | exact All.mono neutral_select fun _ h => neutral_allowed h
    | exact .pure (frameOk_free nofun nofun nofun nofun)
    | exact .fmap fun _ => allowed_opens _ _
    | exact visitCode2_allowed f k pos _
    | exact .bind fun _ => All.mono (visitFb_neutral _ _) fun _ h => neutral_allowed h
    | exact .bind fun _ => All.mono (visitFc_neutral _ _) fun _ h => neutral_allowed h
    | exact .bind fun _ => All.mono (visitFd_neutral _ _ _) fun _ h => neutral_allowed h
    | exact .bind fun _ => All.mono (visitFe_neutral _ _ _) fun _ h => neutral_allowed h
    | exact .bind fun _ => .fmap fun _ => neutral_allowed rfl
    | exact .bind fun _ => .bind fun _ => .pure (neutral_allowed rfl)
    | exact .bind fun _ => .bind fun _ => .fmap fun _ => neutral_allowed rfl
    | exact allowed_tryTable
    | exact .bind fun _ => .fmap fun _ => allowed_opens _ _
    | exact .guard (fun _ _ h => expectFrame_ok h) fun hk =>
        .pure ⟨fun _ => hk, by simp [tokOp], by simp [tokOp]⟩
    | exact .guard (fun _ _ h => expectFrame_ok h) fun hk =>
        .fmap fun _ => ⟨by simp [tokOp], by simp [tokOp], fun _ => hk⟩
    | exact .bind fun _ => .guard (fun _ _ h => expectCatchFrame_ok h) fun hk =>
        .pure ⟨by simp [tokOp], fun _ => hk, by simp [tokOp]⟩
    | exact .bind fun _ => .guard (fun _ _ h => expectCatchFrame_ok h) fun hk =>
        .fmap fun _ => ⟨by simp [tokOp], fun _ => hk, by simp [tokOp]⟩

theorem visitCode0_allowed (f : Features) (k : FrameKind) (pos code : Nat) :
    All (Allowed k) (visitCode0 f k pos code) := by
  unfold visitCode0
  split <;> first
    | exact All.mono (P := Neutral) (.pure rfl) fun _ h => neutral_allowed h
    | exact All.mono (P := Neutral) (.fmap fun _ => rfl) fun _ h => neutral_allowed h
    | exact All.mono (neutral_read2 fun _ _ => rfl) fun _ h => neutral_allowed h
    | exact All.mono neutral_select fun _ h => neutral_allowed h
    | exact .pure (frameOk_free nofun nofun nofun nofun)
    | exact .fmap fun _ => allowed_opens _ _
    | exact visitCode1_allowed f k pos _
    | exact .bind fun _ => All.mono (visitFb_neutral _ _) fun _ h => neutral_allowed h
    | exact .bind fun _ => All.mono (visitFc_neutral _ _) fun _ h => neutral_allowed h
    | exact .bind fun _ => All.mono (visitFd_neutral _ _ _) fun _ h => neutral_allowed h
    | exact .bind fun _ => All.mono (visitFe_neutral _ _ _) fun _ h => neutral_allowed h
    | exact .bind fun _ => .fmap fun _ => neutral_allowed rfl
    | exact .bind fun _ => .bind fun _ => .pure (neutral_allowed rfl)
    | exact .bind fun _ => .bind fun _ => .fmap fun _ => neutral_allowed rfl
    | exact allowed_tryTable
    | exact .bind fun _ => .fmap fun _ => allowed_opens _ _
    | exact .guard (fun _ _ h => expectFrame_ok h) fun hk =>
        .pure ⟨fun _ => hk, by simp [tokOp], by simp [tokOp]⟩
    | exact .guard (fun _ _ h => expectFrame_ok h) fun hk =>
        .fmap fun _ => ⟨by simp [tokOp], by simp [tokOp], fun _ => hk⟩
    | exact .bind fun _ => .guard (fun _ _ h => expectCatchFrame_ok h) fun hk =>
        .pure ⟨by simp [tokOp], fun _ => hk, by simp [tokOp]⟩
    | exact .bind fun _ => .guard (fun _ _ h => expectCatchFrame_ok h) fun hk =>
        .fmap fun _ => ⟨by simp [tokOp], fun _ => hk, by simp [tokOp]⟩

theorem visitCode_allowed (f : Features) (k : FrameKind) (pos code : Nat) :
    All (Allowed k) (visitCode f k pos code) := by
  unfold visitCode
  split
  case h_3 => exact .fmap fun _ => allowed_opens _ _
  case h_4 => exact .fmap fun _ => allowed_opens _ _
  case h_5 => exact .fmap fun _ => allowed_opens _ _
  case h_6 =>
    exact .guard (fun _ _ h => expectFrame_ok h) fun hk => .pure ⟨fun _ => hk, nofun, nofun⟩
  case h_7 => exact .bind fun _ => .fmap fun _ => allowed_opens _ _
  case h_8 =>
    exact .bind fun _ => .guard (fun _ _ h => expectCatchFrame_ok h) fun hk =>
      .fmap fun _ => ⟨nofun, fun _ => hk, nofun⟩
  case h_12 => exact .pure (frameOk_free nofun nofun nofun nofun)
  case h_18 => exact .bind fun _ => .bind fun _ => .pure (neutral_allowed rfl)
  case h_23 =>
    exact .guard (fun _ _ h => expectFrame_ok h) fun hk => .fmap fun _ => ⟨nofun, nofun, fun _ => hk⟩
  case h_24 =>
    exact .bind fun _ => .guard (fun _ _ h => expectCatchFrame_ok h) fun hk =>
      .pure ⟨nofun, fun _ => hk, nofun⟩
  case h_27 => exact All.mono neutral_select fun _ h => neutral_allowed h
  all_goals first
    | exact All.mono (P := Neutral) (.pure rfl) fun _ h => neutral_allowed h
    | exact All.mono (P := Neutral) (.fmap fun _ => rfl) fun _ h => neutral_allowed h
    | exact All.mono (neutral_read2 fun _ _ => rfl) fun _ h => neutral_allowed h
    | exact visitCode0_allowed f k pos _

theorem visitOperator_allowed {f : Features} {frame : Option FrameKind} {r r' : Reader}
    {op : Operator} (h : visitOperator f frame r = .ok (op, r')) :
    ∃ k, frame = some k ∧ FrameOk k (tokOp op) := by
  cases frame with
  | none => cases h
  | some k =>
    refine ⟨k, rfl, ?_⟩
    have : All (Allowed k) (visitOperator f (some k)) :=
      .bind fun pos => .bind fun code => visitCode_allowed f k pos code.toNat
    exact this _ _ _ h

/-! ### Reading all operators -/

/-- A successful `collect` is a run of the stack. -/
theorem collect_run (f : Features) : ∀ (n : Nat) (s : OperatorsReader) (ops : List Operator)
    (s' : OperatorsReader) (ks : List FrameKind), IsStack s.stack ks →
    s.collectFrom f n = .ok (ops, s') → ∃ ks', IsStack s'.stack ks' ∧ Run ks ops ks'
  | 0, s, ops, s', ks, hs, h => by
    unfold OperatorsReader.collectFrom at h
    cases h
    exact ⟨ks, hs, rfl⟩
  | n + 1, s, ops, s', ks, hs, h => by
    unfold OperatorsReader.collectFrom at h
    split at h
    · cases h
      exact ⟨ks, hs, rfl⟩
    · split at h
      · cases h
      · next op s1 h1 =>
        split at h
        · cases h
        · next ops1 s2 h2 =>
          cases h
          unfold OperatorsReader.read at h1
          split at h1
          · cases h1
          · next op1 r1 h3 =>
            cases h1
            obtain ⟨k, hk1, hk2⟩ := visitOperator_allowed h3
            obtain ⟨r0, st⟩ := s
            dsimp only at hs hk1 h2 h3
            cases hs with
            | nil => cases hk1
            | cons k' ks =>
              obtain rfl := Option.some.inj hk1
              obtain ⟨ks', h4, h5⟩ := collect_run f n _ _ _ _ (visit_stack (.cons k' ks) op) h2
              exact ⟨ks', h4, ⟨k', ks, rfl, hk2⟩, h5⟩

theorem finish_ok {s : OperatorsReader} (h : s.finish = .ok ()) :
    s.stack.top = none ∧ s.reader.eof = true := by
  unfold OperatorsReader.finish at h
  split at h
  · cases h
  · next h1 =>
    split at h
    · cases h
    · next h2 => exact ⟨by simpa using h1, by simpa using h2⟩

theorem collect_expr {f : Features} {r : Reader} {ops : List Operator} {s' : OperatorsReader}
    (h : (OperatorsReader.new r).collect f = .ok (ops, s')) (hf : s'.finish = .ok ()) :
    Expr (ops.map tokOp) := by
  obtain ⟨ks', h1, h2⟩ := collect_run f _ _ _ _ [.block] (.cons _ _) h
  obtain ⟨h3, -⟩ := finish_ok hf
  have : ks' = [] := by
    obtain ⟨r', st⟩ := s'
    dsimp only at h1 h3
    cases h1 with
    | nil => rfl
    | cons => cases h3
  subst this
  exact run_expr h2

theorem corr_tok {i : Enc.Instr} {op : Operator} (h : Corr i op) : tokOp op = tok i := by
  cases i <;> cases op <;> first
    | (exfalso; exact h)
    | rfl
    | (obtain ⟨rfl, -⟩ := h; rename_i o _ _; cases o <;> rfl)

theorem exists_tok : ∀ t : Tok, ∃ op : Operator, tokOp op = t
  | .opens => ⟨.block .block .empty, rfl⟩
  | .opensIf => ⟨.block .if_ .empty, rfl⟩
  | .else_ => ⟨.else_, rfl⟩
  | .opensTry => ⟨.block .try_ .empty, rfl⟩
  | .catch_ => ⟨.catch_ 0, rfl⟩
  | .catchAll => ⟨.catchAll, rfl⟩
  | .delegate => ⟨.delegate 0, rfl⟩
  | .end_ => ⟨.end_, rfl⟩
  | .other => ⟨.atomicFence, rfl⟩

theorem exists_toks : ∀ ts : List Tok, ∃ ops : List Operator, ops.map tokOp = ts
  | [] => ⟨[], rfl⟩
  | t :: ts => by
    obtain ⟨op, h⟩ := exists_tok t
    obtain ⟨ops, h'⟩ := exists_toks ts
    exact ⟨op :: ops, by simp [h, h']⟩

/-- Reading back a run of instructions. -/
theorem collect_seq (f : Features) : ∀ (is : List Enc.Instr) (b : List UInt8) (n : Nat)
    (s : OperatorsReader) (ks ks' : List FrameKind), Enc.encodeSeq is = some b →
    (∀ i ∈ is, Fits f i) → s.reader.rest = b → b.length ≤ n → IsStack s.stack ks →
    (∀ ops : List Operator, ops.map tokOp = is.map tok → Run ks ops ks') →
    ∃ ops s', s.collectFrom f n = .ok (ops, s') ∧ List.Forall₂ Corr is ops ∧
      s'.reader.eof = true ∧ IsStack s'.stack ks'
  | [], b, n, s, ks, ks', he, _, hr, _, hs, hrun => by
    obtain rfl := Option.some.inj he
    have heof : s.reader.eof = true := by
      have h := congrArg List.length hr
      simp only [Reader.rest, List.length_nil, List.length_drop] at h
      simp [Reader.eof, Reader.maxPosition]; omega
    have := hrun [] rfl
    refine ⟨[], s, ?_, .nil, heof, ?_⟩
    · cases n with
      | zero => rfl
      | succ n => unfold OperatorsReader.collectFrom; rw [if_pos heof]
    · cases this; exact hs
  | i :: is, b, n, s, ks, ks', he, hfit, hr, hn, hs, hrun => by
    obtain ⟨bi, bs, hi, hbs, rfl⟩ := encodeSeq_cons he
    have hbi := encode_ne_nil hi
    cases n with
    | zero =>
      simp only [List.length_append] at hn
      exact absurd (List.length_eq_zero_iff.1 (by omega)) hbi
    | succ n =>
      have heof : ¬ s.reader.eof = true := by
        have h := congrArg List.length hr
        have hl : bi.length ≠ 0 := fun h => hbi (List.length_eq_zero_iff.1 h)
        simp only [Reader.rest, List.length_drop, List.length_append] at h
        simp [Reader.eof, Reader.maxPosition]; omega
      have hk : ∃ k rest, ks = k :: rest ∧ FrameOk k (tok i) := by
        obtain ⟨op0, h0⟩ := exists_tok (tok i)
        obtain ⟨ops0, h1⟩ := exists_toks (is.map tok)
        obtain ⟨⟨k, rest, h2, h3⟩, -⟩ := hrun (op0 :: ops0) (by simp [h0, h1])
        exact ⟨k, rest, h2, h0 ▸ h3⟩
      obtain ⟨k, rest, rfl, hk⟩ := hk
      obtain ⟨op, ho1, ho2⟩ := decP_instr f k i bi hi (hfit i (List.mem_cons_self ..)) hk
        s.reader bs hr
      have htop : s.stack.top = some k := by
        obtain ⟨r0, st⟩ := s
        dsimp only at hs
        cases hs; rfl
      have hread : s.read f = .ok (op, ⟨s.reader.advance bi.length, s.stack.visit op⟩) := by
        unfold OperatorsReader.read
        rw [htop, ho1]
      have hop := corr_tok ho2
      obtain ⟨ops, s', h1, h2, h3, h4⟩ := collect_seq f is bs n
        ⟨s.reader.advance bi.length, s.stack.visit op⟩ (stepStack op (k :: rest)) ks' hbs
        (fun x hx => hfit x (List.mem_cons_of_mem _ hx)) (by simp [hr])
        (by
          have hl : bi.length ≠ 0 := fun h => hbi (List.length_eq_zero_iff.1 h)
          simp only [List.length_append] at hn; omega)
        (visit_stack hs op)
        (fun ops hops => (hrun (op :: ops) (by simp [hop, hops])).2)
      refine ⟨op :: ops, s', ?_, .cons ho2 h2, h3, h4⟩
      unfold OperatorsReader.collectFrom
      rw [if_neg heof, hread]
      simp only [h1]

theorem collect_encoded {f : Features} {is : List Enc.Instr} {b : List UInt8} (r : Reader)
    (he : Enc.encodeSeq is = some b) (hf : ∀ i ∈ is, Fits f i) (hx : Expr (is.map tok))
    (hr : r.rest = b) : ∃ ops s', (OperatorsReader.new r).collect f = .ok (ops, s') ∧
      List.Forall₂ Corr is ops ∧ s'.finish = .ok () := by
  obtain ⟨ops, s', h1, h2, h3, h4⟩ := collect_seq f is b r.bytesRemaining (OperatorsReader.new r)
    [.block] [] he hf hr (by
      rw [← hr]
      simp [Reader.rest, Reader.bytesRemaining, Reader.maxPosition]) (.cons _ _)
    (fun ops h => expr_run (h ▸ hx) _)
  refine ⟨ops, s', h1, h2, ?_⟩
  have htop : s'.stack.top = none := by
    obtain ⟨r0, st⟩ := s'
    dsimp only at h4
    cases h4; rfl
  unfold OperatorsReader.finish
  simp [htop, h3]

theorem memFits_bit6 {f : Features} {m : Enc.MemArg} (h : MemFits f m) :
    m.align.getLsbD 6 = false := by
  have : m.align.toNat < 64 := by
    have := h.1
    split at this <;> omega
  exact Nat.testBit_lt_two_pow this

end Verif.Instr
