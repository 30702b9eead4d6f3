import Verif.Op.ArityVisit
/-! The arity of the operators that do not change the frames. -/
namespace Verif.Op.AritySpec
open Verif.Op
open Verif.Types (AbsHeap HeapType RefType ValType)
open Verif.Instr (FrameKind BlockType MemArg Catch Handle BrTable Operator)
open Verif.TypeList.Spec (Field Storage Comp SubT)

section
variable (E : Env)

/-! ### Loops -/

theorem eff_setInit (i : BitVec 32) : Eff (setInit i) 0 0 where
  spec S x S' fr rest hc hl hr := by
    unfold setInit at hr
    split at hr
    · cases hr
      exact ⟨rfl, .same rfl fun L hL => ⟨L, hL, rfl⟩⟩
    · cases hr
instance (i : BitVec 32) : Eff (setInit i) 0 0 := eff_setInit i
instance (i : BitVec 32) : Eff (visitLocalSet E i) 1 0 := by unfold visitLocalSet; eff
instance (i : BitVec 32) : Eff (visitLocalTee E i) 1 1 := by unfold visitLocalTee; eff

theorem eff_matchAll (ts us : List Val) : Eff (matchAll E ts us) 0 0 :=
  Eff.eachSame (fun _ => inferInstance) _
instance (ts us : List Val) : Eff (matchAll E ts us) 0 0 := eff_matchAll E ts us
instance (c : Catch) : Eff (checkCatch E c) 0 0 := by unfold checkCatch; eff
instance (cs : List Catch) : Eff (each (checkCatch E) cs) 0 0 :=
  Eff.eachSame (fun _ => inferInstance) _

instance (ts : List Val) : Eff (popPushLabelTypes E ts) ts.length ts.length := by
  unfold popPushLabelTypes; eff
instance (t : FuncTy) : Eff (checkCallTy E t) t.params.length t.results.length := by
  unfold checkCallTy; eff
instance (i : BitVec 32) : Eff (checkCallRefTy E i) 1 0 := by unfold checkCallRefTy; eff
instance (i j : BitVec 32) : Eff (checkCallIndirectTy E i j) 1 0 := by
  unfold checkCallIndirectTy; eff

theorem eff_popTypes : ∀ ts : List Val, Eff (popTypes E ts) ts.length 0
  | [] => Eff.reads (pure [])
  | t :: ts => by
    have := eff_popTypes ts
    unfold popTypes
    exact Eff.cast (Eff.bind (inferInstance : Eff (pop E (some t)) 1 0) fun m =>
      Eff.bind this fun ms => Eff.reads (pure (m :: ms)))
      (by simp only [List.length_cons]; omega) (by omega)

theorem popTypes_length : ∀ (ts : List Val) (S S' : St) (ms : List MT),
    popTypes E ts S = (.ok ms, S') → ms.length = ts.length
  | [], _, _, _, h => by cases h; rfl
  | t :: ts, S, S', ms, h => by
    obtain ⟨m, S1, h1, h2⟩ := bind_inv (m := pop E (some t)) h
    obtain ⟨ms', S2, h3, h4⟩ := bind_inv h2
    cases h4
    simp [popTypes_length ts S1 _ ms' h3]

instance (ts : List Val) : Eff (matchStackOperands E ts) ts.length ts.length where
  spec S x S' fr rest hc hl hr := by
    obtain ⟨ms, S1, h1, h2⟩ := bind_inv (m := popTypes E ts.reverse) hr
    obtain ⟨c1, m1⟩ := (eff_popTypes E ts.reverse).spec S ms S1 fr rest hc hl h1
    have hlen := m1.length
    obtain ⟨c2, m2⟩ := (Eff.eachPush (fun t => inferInstanceAs (Eff (pushMT t) 0 1))
      ms.reverse).spec S1 x S' fr rest (c1.trans hc) (by omega) h2
    refine ⟨c2.trans c1, Moves.cast (m1.trans (h := S.operands.length - fr.height) (a' := 0)
      (b' := ms.reverse.length) ?_) (by simp) ?_⟩
    · have : S1.operands.length - fr.height =
          S.operands.length - fr.height - ts.reverse.length + 0 := by omega
      rwa [this] at m2
    · have := popTypes_length E _ _ _ _ h1
      simp only [List.length_reverse] at this ⊢
      omega

/-- `n` operands are asked for, once more for every target; the last round takes them. -/
theorem eff_brTargets (ds : List Val) : ∀ items,
    Eff (each (checkBrTarget E ds.length) items >>= fun _ => popAll E ds) ds.length 0
  | [] => inferInstanceAs (Eff (popAll E ds) ds.length 0)
  | i :: items => by
    have ih := eff_brTargets ds items
    refine ⟨fun S x S' fr rest hc hl hr => ?_⟩
    obtain ⟨_, S1, h1, h2⟩ := bind_inv hr
    obtain ⟨_, S2, h3, h4⟩ := bind_inv (m := checkBrTarget E ds.length i) h1
    unfold checkBrTarget at h3
    obtain ⟨d, S3, h5, h6⟩ := bind_inv h3
    obtain ⟨ts, S4, h7, h8⟩ := bind_inv h6
    obtain ⟨_, S5, h9, h10⟩ := bind_inv h8
    have e1 := (inferInstance : Reads (orError i)).spec S
    rw [h5] at e1
    dsimp only at e1
    subst e1
    have e2 := (inferInstance : Reads (jumpTypes E d)).spec S3
    rw [h7] at e2
    dsimp only at e2
    subst e2
    have hlen := Gives.require _ _ _ _ rfl h9
    have e3 := (inferInstance : Reads (require (ts.length == ds.length))).spec S4
    rw [h9] at e3
    dsimp only at e3
    subst e3
    have hlen : ts.length = ds.length := by simpa using hlen
    obtain ⟨c1, m1⟩ := (inferInstance : Eff (matchStackOperands E ts) ts.length ts.length).spec
      S5 _ S2 fr rest hc hl h10
    rw [hlen] at m1
    have hl1 := m1.length
    have h11 : (each (checkBrTarget E ds.length) items >>= fun _ => popAll E ds) S2 =
        (.ok x, S') := by
      rw [bind_def, h4]
      exact h2
    obtain ⟨c2, m2⟩ := ih.spec S2 x S' fr rest (c1.trans hc) (by omega) h11
    have : S2.operands.length - fr.height =
        S5.operands.length - fr.height - ds.length + ds.length := by omega
    rw [this] at m2
    exact ⟨c2.trans c1, (m1.trans m2).cast (by omega) (by omega)⟩

instance (n : Nat) (t : Val) : Eff (each (popT E) (List.replicate n t)) n 0 :=
  (Eff.eachN (fun t => inferInstanceAs (Eff (popT E t) 1 0)) _).cast (by simp) rfl
instance (i n : BitVec 32) : Eff (visitArrayNewFixed E i n) n.toNat 1 := by
  unfold visitArrayNewFixed; eff

/-! ### The tables -/

/-- The arities of the bodies of operators without immediates. -/
def plainNumbers : PlainBody → Option (Nat × Nat)
  | .nop => some (0, 0)
  | .unreachable | .ret | .throwRef => none
  | .drop => some (1, 0)
  | .select | .bitselect | .v128Ternary => some (3, 1)
  | .eqz _ | .unary _ | .funary _ | .conversion .. | .fconversion .. | .refIsNull
  | .refAsNonNull | .refI31 | .refI31Shared | .i31Get | .arrayLen | .anyConvertExtern
  | .externConvertAny | .splat _ | .fsplat _ | .v128Unary | .v128Funary | .v128Bitmask
    => some (1, 1)
  | .cmp _ | .fcmp _ | .binary _ | .fbinary _ | .refEq | .swizzle | .v128Binary
  | .v128Fbinary | .v128Shift => some (2, 1)
  | .binop128 => some (4, 2)
  | .mulWide => some (2, 2)

theorem eff_runPlain (b : PlainBody) (p : Nat × Nat) (h : plainNumbers b = some p) :
    Eff (runPlain E b) p.1 p.2 := by
  cases b <;> cases h <;> (unfold runPlain; eff)

theorem plainArity_eq (o : Instr.Plain) : ∀ p, plainNumbers (plainBody o) = some p →
    plainArity o = some p := by
  cases o <;> intro p h <;> first
    | exact h
    | cases h

/-- The arities of the bodies of operators with a `MemArg`. -/
def memNumbers : MemBody → Nat × Nat
  | .load _ | .fload _ | .v128Load | .atomicLoad _ => (1, 1)
  | .store _ | .fstore _ | .atomicStore _ => (2, 0)
  | .rmw _ => (2, 1)
  | .cmpxchg _ | .wait _ => (3, 1)

theorem eff_runMem (m : MemArg) (b : MemBody) :
    Eff (runMem E m b) (memNumbers b).1 (memNumbers b).2 := by
  cases b <;> (unfold runMem; unfold memNumbers; eff)

theorem memArity_eq (o : Instr.Mem) : memArity o = memNumbers (memBody o) := by
  cases o <;> rfl

/-- The arities of the bodies of operators with a `MemArg` and a lane. -/
def memLaneNumbers : MemLaneBody → Nat × Nat
  | .load _ => (2, 1)
  | .store _ => (2, 0)

theorem eff_runMemLane (m : MemArg) (l : UInt8) (b : MemLaneBody) :
    Eff (runMemLane E m l b) (memLaneNumbers b).1 (memLaneNumbers b).2 := by
  cases b <;> (unfold runMemLane; unfold memLaneNumbers; eff)

theorem memLaneArity_eq (o : Instr.MemLane) :
    memLaneArity o = memLaneNumbers (memLaneBody o) := by
  cases o <;> rfl

/-- The arities of the bodies of operators with a lane. -/
def laneNumbers : LaneBody → Nat × Nat
  | .extract .. | .fextract .. => (1, 1)
  | .replace .. | .freplace .. => (2, 1)

theorem eff_runLane (l : UInt8) (b : LaneBody) :
    Eff (runLane E l b) (laneNumbers b).1 (laneNumbers b).2 := by
  cases b <;> (unfold runLane; unfold laneNumbers; eff)

theorem laneArity_eq (o : Instr.Lane) : laneArity o = laneNumbers (laneBody o) := by
  cases o <;> rfl

theorem eff_visitHeap (o : Instr.Heap) (h : HeapType) :
    Eff (visitHeap E o h) (heapArity o).1 (heapArity o).2 := by
  cases o <;> (unfold visitHeap heapArity; dsimp only; infer_instance)

theorem eff_visitAtomic (o : Instr.Atomic) (i : BitVec 32) :
    Eff (visitAtomic E o i) (atomicArity o).1 (atomicArity o).2 := by
  cases o <;> (unfold visitAtomic atomicArity; dsimp only; infer_instance)

theorem eff_visitAtomic2 (o : Instr.Atomic2) (i j : BitVec 32) :
    Eff (visitAtomic2 E o i j) (atomic2Arity o).1 (atomic2Arity o).2 := by
  cases o <;> (unfold visitAtomic2 atomic2Arity; dsimp only; infer_instance)

theorem eff_visitIdx (o : Instr.Idx) (i : BitVec 32) (p : Nat × Nat)
    (hs : o ≠ .rethrow) (h : idxArity o = some p) : Eff (visitIdx E o i) p.1 p.2 := by
  cases o <;> first
    | cases h; done
    | exact absurd rfl hs
    | (cases h; unfold visitIdx; dsimp only; infer_instance)
    | (cases h; unfold visitIdx; eff)

theorem eff_visitIdx2 (o : Instr.Idx2) (i j : BitVec 32) (p : Nat × Nat)
    (h : idx2Arity o = some p) : Eff (visitIdx2 E o i j) p.1 p.2 := by
  cases o <;> first
    | cases h; done
    | (cases h; unfold visitIdx2; dsimp only; infer_instance)

end

/-! ### The others -/

/-- Computing an arity from what is known about its parts. -/
macro "ar" "[" hs:Lean.Parser.Tactic.simpLemma,* "]" : tactic => `(tactic|
  (simp only [$hs,*, bind, Except.bind, pure, Except.pure, Except.ok.injEq, Prod.mk.injEq,
     and_true, true_and, List.length_dropLast, List.length_map, List.length_take]
   try omega))

section
variable (E : Env) (c : List Frame)

theorem agr_checkReturn : Agr true c (checkReturn E) fun a b => arReturn E c = .ok (a, b) :=
  .read (gives_functionResults E c) fun rs hrs => .step fun _ => .halt (by ar [hrs])

theorem agr_br (d : BitVec 32) : Agr true c (visitBr E d) fun a b => arBr E c d = .ok (a, b) :=
  .read (gives_jumpTypes E c d) fun ts hts => .step fun _ => .halt (by ar [hts])

theorem agr_brIf (d : BitVec 32) :
    Agr false c (visitBrIf E d) fun a b => arBrIf E c d = .ok (a, b) :=
  .step fun _ => .read (gives_jumpTypes E c d) fun ts hts => .last (by ar [arBrIf, hts])

theorem agr_brTable (t : BrTable) :
    Agr true c (visitBrTable E t) fun a b => arBrTable E c t = .ok (a, b) := by
  unfold visitBrTable
  refine .step fun _ => .read (gives_jumpTypes E c _) fun ds hds => ?_
  have := eff_brTargets E ds (brItems t.reader t.cnt)
  intro S x S' fr rest hc hc' hl hr
  refine Agr.step (st := true) (c := c)
    (m := each (checkBrTarget E ds.length) (brItems t.reader t.cnt) >>= fun _ => popAll E ds)
    (k := fun _ => unreachable) (fun _ => .halt (P := _) ?_) S x S' fr rest hc hc' hl ?_
  · ar [arBrTable, hds]
  · rw [bind_def] at hr ⊢
    rw [bind_def]
    rcases he : each (checkBrTarget E ds.length) (brItems t.reader t.cnt) S with ⟨r, S1⟩
    rw [he] at hr
    cases r with
    | error e => exact hr
    | ok u => exact hr

theorem agr_brOnNull (d : BitVec 32) :
    Agr false c (visitBrOnNull E d) fun a b => arBrOnNull E c d = .ok (a, b) :=
  .step fun r => .read (gives_jumpTypes E c d) fun ts hts => .step fun _ =>
    .last (by ar [arBrOnNull, hts])

theorem length_of_lastRef {ts : List Val} {r : Ref} (h : lastRef ts = some r) :
    0 < ts.length := by
  cases ts with
  | nil => cases h
  | cons t ts => exact Nat.succ_pos _

theorem length_of_lastRefId {ts : List Val} {r : Nat} (h : lastRefId ts = some r) :
    0 < ts.length := by
  cases ts with
  | nil => cases h
  | cons t ts => exact Nat.succ_pos _

theorem length_of_getLast? {ts : List Val} {r : Val} (h : ts.getLast? = some r) :
    0 < ts.length := by
  cases ts with
  | nil => cases h
  | cons t ts => exact Nat.succ_pos _

theorem checkedSub_of_le {a b : Nat} (h : b ≤ a) : checkedSub a b = .ok (a - b) := if_pos h

theorem agr_brOnNonNull (d : BitVec 32) :
    Agr false c (visitBrOnNonNull E d) fun a b => arBrOnNonNull E c d = .ok (a, b) :=
  .read (gives_jumpTypes E c d) fun ts hts => .read (Gives.orError _) fun r hr =>
    .step fun _ => .last (by
      have := length_of_lastRef hr
      ar [arBrOnNonNull, hts, checkedSub_of_le this])

theorem agr_castBranch (d : BitVec 32) (f s k : Ref) :
    Agr false c (castBranch E d f s k) fun a b => arBrOnCast E c d = .ok (a, b) :=
  .read (gives_jumpTypes E c d) fun ts hts => .read (Gives.orError _) fun r hr =>
    .skip fun _ => .step fun _ => .step fun _ => .last (by
      have := length_of_getLast? hr
      ar [arBrOnCast, hts])

theorem agr_castBranchDesc (d : BitVec 32) (f s k : Ref) :
    Agr false c (castBranch E d f s k) fun a b =>
      arBrOnCastDescEq E c d = .ok (1 + (a - 0), 0 - a + b) :=
  .read (gives_jumpTypes E c d) fun ts hts => .read (Gives.orError _) fun r hr =>
    .skip fun _ => .step fun _ => .step fun _ => .last (by
      have := length_of_getLast? hr
      ar [arBrOnCastDescEq, hts])

theorem agr_cast (o : Instr.Cast) (d : BitVec 32) (f t : RefType) :
    Agr false c (visitCast E o d f t) fun a b =>
      operatorArity E c (.cast o d f t) = .ok (a, b) := by
  cases o
  · exact .skip fun p => agr_castBranch E c d p.1 p.2 (difference p.1 p.2)
  · exact .skip fun p => agr_castBranch E c d p.1 (difference p.1 p.2) p.2
  · exact .skip fun _ => .skip fun p => .step (a := 1) (b := 0) fun _ =>
      agr_castBranchDesc E c d p.1 p.2 (difference p.1 p.2)
  · exact .skip fun _ => .skip fun p => .step (a := 1) (b := 0) fun _ =>
      agr_castBranchDesc E c d p.1 (difference p.1 p.2) p.2

theorem agr_call (i : BitVec 32) :
    Agr false c (visitCall E i) fun a b => arCall E i = .ok (a, b) :=
  .read (gives_typeOfFunction E c i) fun t ht => .last ht

theorem agr_callRef (i : BitVec 32) :
    Agr false c (visitCallRef E i) fun a b => arCallIndirect E i = .ok (a, b) :=
  .stepv (gives_checkCallRefTy E c i) fun t ht => .last (by ar [arCallIndirect, ht])

theorem agr_callIndirect (i j : BitVec 32) :
    Agr false c (visitCallIndirect E i j) fun a b => arCallIndirect E i = .ok (a, b) :=
  .stepv (gives_checkCallIndirectTy E c i j) fun t ht => .last (by ar [arCallIndirect, ht])

theorem gives_sameResults (t : FuncTy) : Gives c (checkFuncTypeSameResults E t) fun _ =>
    arReturn E c = .ok (t.results.length, 0) := by
  unfold checkFuncTypeSameResults
  refine .bind (gives_functionResults E c) fun rs hrs => ?_
  intro S x S' hc h
  have := Gives.require (c := c) _ S x S' hc h
  simp only [Bool.and_eq_true, beq_iff_eq] at this
  rw [hrs, this.1]

theorem agr_checkReturnCallTy (t : FuncTy) {P : Nat → Nat → Prop} (hp : P t.params.length 0) :
    Agr true c (checkReturnCallTy E t) P :=
  .read (gives_sameResults E c t) fun _ hs => .step fun _ => .step fun _ =>
    .read (gives_functionResults E c) fun rs hrs => .step fun _ => .halt (by
      rw [hs] at hrs
      simp only [Except.ok.injEq, Prod.mk.injEq, and_true] at hrs
      have h1 : t.params.length + (0 + (rs.length + (0 - 0) - t.results.length) - 0) =
        t.params.length := by omega
      have h2 : 0 - (0 + (rs.length + (0 - 0) - t.results.length)) +
        (t.results.length - (rs.length + (0 - 0)) + (0 - 0 + 0)) = 0 := by omega
      rw [h1, h2]
      exact hp)

theorem agr_returnCall (i : BitVec 32) :
    Agr true c (visitReturnCall E i) fun a b => arReturnCall E i = .ok (a, b) :=
  .read (gives_typeOfFunction E c i) fun t ht => agr_checkReturnCallTy E c t (by
    ar [arReturnCall, ht])

theorem agr_returnCallRef (i : BitVec 32) :
    Agr true c (visitReturnCallRef E i) fun a b => arReturnCallIndirect E i = .ok (a, b) :=
  .stepv (gives_checkCallRefTy E c i) fun t ht => agr_checkReturnCallTy E c t (by
    ar [arReturnCallIndirect, arCallIndirect, ht])

theorem agr_returnCallIndirect (i j : BitVec 32) :
    Agr true c (visitReturnCallIndirect E i j) fun a b => arReturnCallIndirect E i = .ok (a, b) :=
  .stepv (gives_checkCallIndirectTy E c i j) fun t ht => agr_checkReturnCallTy E c t (by
    ar [arReturnCallIndirect, arCallIndirect, ht])

theorem agr_throw (i : BitVec 32) :
    Agr true c (visitThrow E i) fun a b => arThrow E i = .ok (a, b) :=
  .read (gives_exceptionTagAt E c i) fun t ht => .step fun _ => .halt (by ar [arThrow, ht])

theorem agr_rethrow (d : BitVec 32) :
    Agr true c (visitRethrow d) fun a b => (.ok (0, 0) : Ar (Nat × Nat)) = .ok (a, b) :=
  .skip fun _ => .skip fun _ => .halt rfl

theorem agr_structNew (i : BitVec 32) :
    Agr false c (visitStructNew E i) fun a b => arStructNew E i = .ok (a, b) :=
  .skip fun _ => .skip fun _ => .read (gives_structTypeAt E c i) fun fs hfs =>
    .step fun _ => .last (by ar [arStructNew, hfs])

theorem agr_structNewDesc (i : BitVec 32) :
    Agr false c (visitStructNewDesc E i) fun a b => arStructNewDesc E i = .ok (a, b) :=
  .skip fun _ => .skip fun _ => .step fun _ => .read (gives_structTypeAt E c i) fun fs hfs =>
    .step fun _ => .last (by ar [arStructNewDesc, hfs])

theorem agr_suspend (i : BitVec 32) :
    Agr false c (visitSuspend E i) fun a b => tagTypeArity E i = .ok (a, b) :=
  .read (gives_tagAt E c i) fun t ht => .last ht

theorem agr_contBind (i j : BitVec 32) :
    Agr false c (visitContBind E i j) fun a b => arContBind E i j = .ok (a, b) :=
  .read (gives_contTypeAt E c i) fun ct hct =>
    .read (gives_funcTypeOfContType E c ct) fun f hf =>
      .read (gives_contTypeAt E c j) fun ct' hct' =>
        .read (gives_funcTypeOfContType E c ct') fun f' hf' =>
          .read (Gives.require _) fun _ hle => .skip fun _ => .step fun _ => .step fun _ =>
            .last (by
              have h1 := contTypeArity hct hf
              have h2 := contTypeArity hct' hf'
              have hle : f'.params.length ≤ f.params.length := of_decide_eq_true hle
              ar [arContBind, h1, h2, checkedSub_of_le hle])

theorem agr_resume (i : BitVec 32) (hs : List Handle) :
    Agr false c (visitResume E i hs) fun a b => arCallIndirect E i = .ok (a, b) :=
  .read (gives_checkResumeTable E c hs i) fun f hf => .step fun _ => .step fun _ =>
    .last (by ar [arCallIndirect, hf])

theorem agr_resumeThrow (i t : BitVec 32) (hs : List Handle) :
    Agr false c (visitResumeThrow E i t hs) fun a b => arResumeThrow E i t = .ok (a, b) :=
  .read (gives_checkResumeTable E c hs i) fun f hf =>
    .read (gives_exceptionTagAt E c t) fun ty ht => .step fun _ => .step fun _ =>
      .last (by ar [arResumeThrow, hf, ht])

theorem agr_resumeThrowRef (i : BitVec 32) (hs : List Handle) :
    Agr false c (visitResumeThrowRef E i hs) fun a b => arResumeThrowRef E i = .ok (a, b) :=
  .read (gives_checkResumeTable E c hs i) fun f hf => .step fun _ => .step fun _ =>
    .last (by ar [arResumeThrowRef, hf])

theorem agr_switch (i t : BitVec 32) :
    Agr false c (visitSwitch E i t) fun a b => arSwitch E i = .ok (a, b) :=
  .read (gives_contTypeAt E c i) fun ct hct =>
    .read (gives_funcTypeOfContType E c ct) fun f hf => .skip fun _ => .skip fun _ =>
      .read (Gives.orError _) fun id hid => .read (gives_contAtId E c id) fun oc hoc =>
        .read (gives_funcTypeOfContType E c oc) fun g hg => .skip fun _ => .step fun _ =>
          .step fun _ => .last (by
            have h1 := contTypeArity hct hf
            have h2 := length_of_lastRefId hid
            obtain ⟨sub, h3, h4⟩ := hct
            obtain ⟨sub', h5, h6⟩ := hoc
            have h7 := contArity h6 hg
            ar [arSwitch, h1, arSubTypeAt, h3, Ar.ofOption, arContOf, h4, hf, arSubTypeOfLast,
              hid, h5, h7])

theorem agr_throwRef : Agr true c (runPlain E .throwRef) fun a b =>
    (.ok (1, 0) : Ar (Nat × Nat)) = .ok (a, b) :=
  .step fun _ => .halt rfl

end

end Verif.Op.AritySpec
