import Verif.Valid.Const
import Verif.Op.CompleteFn
import Verif.Op.Kinds
/-! A constant expression of the type is accepted when every proposal is on. -/
namespace Verif.Valid
open Spec
open Verif.Reader Verif.Items
open Verif.Op.Typing Verif.Op.View
open Verif.Op (Fail St Env)
open Verif.Instr (Operator OperatorsReader)
open Verif.Std (BSearch)
open Verif.TypeList (TypeList)

variable {f : Feats} {bs : BSearch} {T : TypeList}

theorem op_refs {C : Ctx} {o : Operator} (hc : Const C o ∨ o = .end_) {m : Op.Module} {rs rs' : List (BitVec 32)}
    (h : ∀ i, o = .idx .refFunc i → (i ∈ rs ↔ i ∈ rs')) :
    Op.op (env f bs T (setRefs m rs)) o = Op.op (env f bs T (setRefs m rs')) o := by
  rcases hc with hc | rfl
  · cases o with
    | plain o =>
      simp only [Const, constPlain, List.mem_cons, List.not_mem_nil, or_false] at hc
      rcases hc with rfl | rfl | rfl | rfl | rfl | rfl | rfl | rfl | rfl | rfl <;> rfl
    | idx o i =>
      simp only [Const, constIdx, List.mem_cons, List.not_mem_nil, or_false] at hc
      rcases hc with (rfl | rfl | rfl | rfl | rfl) | ⟨rfl, -⟩
      · have hi := h i rfl
        have hi : rs.contains i = rs'.contains i := by
          rw [Bool.eq_iff_iff, List.contains_iff_mem, List.contains_iff_mem, hi]
        have e : Op.visitRefFunc (env f bs T (setRefs m rs)) i =
            Op.visitRefFunc (env f bs T (setRefs m rs')) i := by
          unfold Op.visitRefFunc
          show (do
            let id ← _
            Op.require (rs.contains i)
            _) = (do
            let id ← _
            Op.require (rs'.contains i)
            _)
          rw [hi]
          rfl
        show (do Op.require _; Op.visitRefFunc _ i) = (do Op.require _; Op.visitRefFunc _ i)
        rw [e]
        rfl
      all_goals rfl
    | heap o x => cases hc; rfl
    | idx2 o i j => cases hc; rfl
    | i32Const | i64Const | f32Const | f64Const | v128Const => rfl
    | _ => exact hc.elim
  · rfl

theorem constOp_plain {s : ModuleState} {u : Bool} {o : Instr.Plain}
    (h : (if o ∈ extendedPlain then need f.extendedConst
      else if o ∈ gcPlain then need f.gc
      else if o = .refI31Shared then need f.sharedEverythingThreads
      else .error .error) = .ok ()) : constOp f s u (.plain o) = .ok (s, u) := by
  show ((if o ∈ extendedPlain then need f.extendedConst
      else if o ∈ gcPlain then need f.gc
      else if o = .refI31Shared then need f.sharedEverythingThreads
      else .error .error) >>= fun _ => pure (s, u)) = _
  rw [h]
  rfl

theorem constOp_idx {s : ModuleState} {u : Bool} {o : Instr.Idx} {i : BitVec 32} :
    constOp f s u (.idx o i) = (if o ∈ gcIdx then do
      need f.gc
      pure (s, u)
    else if o = .globalGet then do
      validateGlobal f s i
      pure (s, u)
    else if o = .refFunc then pure (insertRefFunc s u i)
    else .error .error) := rfl

theorem constOp_heap {s : ModuleState} {u : Bool} {o : Instr.Heap} {x : Types.HeapType} :
    constOp f s u (.heap o x) = (if o = .refNull then pure (s, u) else .error .error) := rfl

theorem constOp_idx2 {s : ModuleState} {u : Bool} {o : Instr.Idx2} {i j : BitVec 32} :
    constOp f s u (.idx2 o i j) = (do
      (if o = .arrayNewFixed then need f.gc else .error .error)
      pure (s, u)) := rfl

/-- `constOp` accepts what is constant. -/
theorem constOp_complete (hf : f.toFeatures = fullFeatures) (hx : f.extendedConst = true)
    {s : ModuleState} {u : Bool} {L : List (TypeList.Spec.SubT Nat)} {o : Operator}
    {rs : List (BitVec 32)} (hc : Const (ctxOf L (setRefs s.m rs)) o) :
    ∃ s' u', constOp f s u o = .ok (s', u') := by
  have hg : f.gc = true := by rw [hf]; rfl
  have ht : f.sharedEverythingThreads = true := by rw [hf]; rfl
  cases o with
  | plain o =>
    simp only [Const, constPlain, List.mem_cons, List.not_mem_nil, or_false] at hc
    refine ⟨s, u, ?_⟩
    rcases hc with rfl | rfl | rfl | rfl | rfl | rfl | rfl | rfl | rfl | rfl <;>
      exact constOp_plain (by simp [extendedPlain, gcPlain, need, hg, ht, hx])
  | idx o i =>
    simp only [Const, constIdx, List.mem_cons, List.not_mem_nil, or_false] at hc
    rcases hc with (rfl | rfl | rfl | rfl | rfl) | ⟨rfl, g, h1, h2⟩
    · exact ⟨(insertRefFunc s u i).1, (insertRefFunc s u i).2, by simp [constOp_idx, gcIdx]; rfl⟩
    · exact ⟨s, u, by simp [constOp_idx, gcIdx, need, hg]⟩
    · exact ⟨s, u, by simp [constOp_idx, gcIdx, need, hg]⟩
    · exact ⟨s, u, by simp [constOp_idx, gcIdx, need, hg]⟩
    · exact ⟨s, u, by simp [constOp_idx, gcIdx, need, hg]⟩
    · refine ⟨s, u, ?_⟩
      have h1 : (s.m.globals[i.toNat]?).map (fun g => (⟨g.content, g.mutable, g.shared⟩ : GlobalT)) =
          some g := by
        simpa [ctxOf, setRefs] using h1
      cases hgl : s.m.globals[i.toNat]? with
      | none => rw [hgl] at h1; cases h1
      | some g' =>
        rw [hgl] at h1
        cases h1
        have h2 : g'.mutable = false := h2
        have hv : validateGlobal f s i = .ok () := by
          unfold validateGlobal
          rw [hgl]
          show ((if s.numImportedGlobals ≤ i.toNat then need f.gc else pure ()) >>= fun _ =>
            need (!g'.mutable)) = .ok ()
          rw [h2, hg]
          split <;> rfl
        rw [constOp_idx, if_neg (by simp [gcIdx]), if_pos rfl, hv]
        rfl
  | heap o x => cases hc; exact ⟨s, u, by rw [constOp_heap]; rfl⟩
  | idx2 o i j => cases hc; exact ⟨s, u, by rw [constOp_idx2, hg]; rfl⟩
  | i32Const | i64Const | f32Const | f64Const | v128Const => exact ⟨s, u, rfl⟩
  | _ => exact hc.elim

theorem kinds_const {C : Ctx} {E : Env} {o : Operator} (hc : Const C o) {S S' : St} {x : Unit}
    (hk : S.kinds = [.block]) (h : Op.op E o S = (.ok x, S')) : S'.kinds = [.block] := by
  rw [Op.op_kinds hk h]
  cases o with
  | _ => first | rfl | exact hc.elim

theorem collect_step {rf : Instr.Features} {n : Nat} {q q' : OperatorsReader} {o : Operator}
    {os : List Operator} (h : q.collectFrom rf n = .ok (o :: os, q')) :
    ∃ n' r', n = n' + 1 ∧ ¬ q.reader.eof = true ∧
      Instr.visitOperator rf q.stack.top q.reader = .ok (o, r') ∧
      OperatorsReader.collectFrom rf n' ⟨r', q.stack.visit o⟩ = .ok (os, q') := by
  cases n with
  | zero => cases h
  | succ n =>
    unfold OperatorsReader.collectFrom at h
    split at h
    · cases h
    · next he =>
      unfold OperatorsReader.read at h
      cases hv : Instr.visitOperator rf q.stack.top q.reader with
      | error e => rw [hv] at h; cases h
      | ok y =>
        obtain ⟨o', r'⟩ := y
        rw [hv] at h
        dsimp only at h
        cases hc : OperatorsReader.collectFrom rf n ⟨r', q.stack.visit o'⟩ with
        | error e => rw [hc] at h; cases h
        | ok y =>
          obtain ⟨os', q1⟩ := y
          rw [hc] at h
          cases h
          exact ⟨n, r', rfl, he, rfl, hc⟩

theorem collect_nil {rf : Instr.Features} {n : Nat} {q q' : OperatorsReader}
    (h : q.collectFrom rf n = .ok ([], q')) : q' = q := by
  cases n with
  | zero => cases h; rfl
  | succ n =>
    unfold OperatorsReader.collectFrom at h
    split at h
    · cases h; rfl
    · split at h
      · cases h
      · split at h <;> cases h

/-- What was read to be constant runs as the operators do. -/
theorem const_runs (hf : f.toFeatures = fullFeatures) (hx : f.extendedConst = true)
    (m : Op.Module) (rs : List (BitVec 32)) : ∀ (body : List Operator) (n : Nat) (r : Reader)
    (s : ModuleState) (u : Bool) (S S' : St) (q : OperatorsReader),
    (∃ rs0, s.m = setRefs m rs0 ∧ ∀ i ∈ rs0, i ∈ rs) →
    (∀ o ∈ body, Const (ctxOf (listOf T) (setRefs m rs)) o) →
    (∀ i, Operator.idx .refFunc i ∈ body → s.owned = true ∧ i ∈ rs) → S.kinds = [.block] →
    OperatorsReader.collectFrom f.reader.toFeatures n ⟨r, ⟨[], some .block⟩⟩ =
      .ok (body ++ [.end_], q) →
    q.finish = .ok () → Op.runOps (env f bs T (setRefs m rs)) (body ++ [.end_]) S = (.ok (), S') →
    ∃ s', constFrom f bs T n r s u S = .ok (s', u) := by
  have hcd : f.customDescriptors = false := by rw [hf]; rfl
  intro body
  induction body with
  | nil =>
    rintro n r s u S S' q ⟨rs0, hm, hsub⟩ - - hk hc hfin hrun
    obtain ⟨n, r', rfl, he, hv, hc2⟩ := collect_step hc
    dsimp only at he hv hc2
    have e := collect_nil hc2
    subst e
    obtain ⟨S1, h1, h2⟩ := runOps_cons hrun
    have hr : r'.eof = true := by
      by_contra hne
      unfold OperatorsReader.finish at hfin
      rw [visit_end, if_neg (by simp), if_pos hne] at hfin
      cases hfin
    refine ⟨s, ?_⟩
    unfold constFrom
    rw [if_neg he, show S.control.head?.map (·.kind) = some .block by
      have := congrArg List.head? hk
      simpa [St.kinds] using this, hv]
    have h3 : constStep f bs T s u S .end_ = .ok (s, u, S1) := by
      unfold constStep
      have : Op.op (env f bs T s.m) .end_ S = (.ok (), S1) := by
        rw [hm, op_refs (C := ctxOf [] m) (rs' := rs) (.inr rfl) nofun]
        exact h1
      show (match Op.op (env f bs T s.m) .end_ S with | (.ok _, S) => _ | (.error e, _) => _) = _
      rw [this]
      rfl
    show (constStep f bs T s u S .end_ >>= _) = _
    rw [h3]
    show constFrom f bs T n r' s u S1 = _
    cases n <;> unfold constFrom <;> rw [if_pos hr]
  | cons o body ih =>
    rintro n r s u S S' q ⟨rs0, hm, hsub⟩ hcs href hk hc hfin hrun
    obtain ⟨n, r', rfl, he, hv, hc2⟩ := collect_step hc
    dsimp only at he hv hc2
    have hco := hcs o (List.mem_cons_self ..)
    rw [const_visit hco] at hc2
    obtain ⟨S1, h1, h2⟩ := runOps_cons hrun
    obtain ⟨s1, u1, h3⟩ := constOp_complete (u := u) (s := s) hf hx (L := listOf T) (rs := rs) (o := o) (by
      rw [hm]; exact hco)
    obtain ⟨hne, hupd, hmiss, -⟩ := (constOp_ok h3).resolve_left (by
      rintro ⟨rfl, -⟩
      exact hco.elim)
    have hu : u1 = u := by
      rw [Bool.eq_iff_iff]
      refine hmiss.trans ⟨?_, .inl⟩
      rintro (h | ⟨h, i, hi⟩)
      · exact h
      · have := (href i (by
          cases List.mem_singleton.1 hi
          exact List.mem_cons_self ..)).1
        rw [h] at this
        cases this
    subst hu
    have hm1 : ∃ rs1, s1.m = setRefs m rs1 ∧ (∀ i ∈ rs1, i ∈ rs) ∧
        ∀ i, o = .idx .refFunc i → i ∈ rs1 := by
      by_cases hown : s.owned = true
      · refine ⟨s1.m.functionReferences, ?_, fun i hi => ?_, fun i hi => ?_⟩
        · have := congrArg ModuleState.m hupd.eq
          dsimp only at this
          rw [hm] at this
          exact this
        · rcases (hupd.refs hown i).1 hi with h | h
          · rw [hm] at h
            exact hsub i h
          · exact (href i (by
              cases List.mem_singleton.1 h
              exact List.mem_cons_self ..)).2
        · exact (hupd.refs hown i).2 (.inr (hi ▸ List.mem_singleton.2 rfl))
      · have := hupd.same (by simpa using hown)
        subst this
        exact ⟨rs0, hm, hsub, fun i hi => absurd (href i (hi ▸ List.mem_cons_self ..)).1 hown⟩
    obtain ⟨rs1, hm1, hsub1, hin⟩ := hm1
    have h4 : constStep f bs T s u1 S o = .ok (s1, u1, S1) := by
      unfold constStep
      rw [h3]
      have : Op.op (env f bs T s1.m) o S = (.ok (), S1) := by
        rw [hm1, op_refs (rs' := rs) (.inl hco) fun i hi => ?_]
        · exact h1
        · have := hin i hi
          exact iff_of_true this (hsub1 i this)
      show (match Op.op (env f bs T s1.m) o S with | (.ok _, S) => _ | (.error e, _) => _) = _
      rw [this]
      rfl
    obtain ⟨s', h5⟩ := ih n r' s1 u1 S1 S' q ⟨rs1, hm1, hsub1⟩
      (fun o ho => hcs o (List.mem_cons_of_mem _ ho))
      (fun i hi => by
        rw [hupd.owned]
        exact href i (List.mem_cons_of_mem _ hi))
      (kinds_const hco hk h1) hc2 hfin h2
    refine ⟨s', ?_⟩
    unfold constFrom
    rw [if_neg he, show S.control.head?.map (·.kind) = some .block by
      have := congrArg List.head? hk
      simpa [St.kinds] using this, hv]
    show (constStep f bs T s u1 S o >>= _) = _
    rw [h4]
    exact h5

theorem const_end {E : Env} {F : Fn} {B : Base} (hs : Sit E F B) (hf : B.frs = [])
    (hk : B.fr.kind ≠ .if_) {n : Nat} {L : List V} {s : Op.InitSpec.Scopes} {c : List Op.MT}
    (hok : (st B c).Ok n L s) {ty : V} (hbt : B.fr.blockType = .type ty)
    (hp : Pops F.C B.fr.unreachable [ty] c []) :
    ∃ S, Op.op E .end_ (st B c) = (.ok (), S) := by
  obtain ⟨rem, l, h1⟩ := popCtrl_some hok
  have htake : ∃ S1 : St, Op.takeFrame (st B []) = (.ok B.fr, S1) := by
    unfold Op.takeFrame st
    dsimp only
    rw [h1]
    exact ⟨_, rfl⟩
  obtain ⟨S1, h2⟩ := htake
  have hbt' : BTIs F B.fr.blockType [] [ty] := by rw [hbt]; exact ⟨rfl, rfl⟩
  have h8 : Op.results E B.fr.blockType S1 = (.ok [ty], S1) := by
    rw [hbt]
    rfl
  obtain ⟨S2, h9⟩ := pushAll_ok [ty] S1
  refine ⟨S2, ?_⟩
  have hpl : Plainly .end_ := nofun
  rw [op_full hs.full _ hpl]
  show Run B (Op.visitEnd E) c () S2
  rw [visitEnd_eq, run_popCtrl0 hs hbt']
  refine ⟨hp, ?_⟩
  unfold Run
  rw [Op.bind_ok _ h2, if_neg hk]
  show (Op.results E B.fr.blockType >>= fun rs => Op.pushAll rs) S1 = _
  rw [Op.bind_ok _ h8]
  exact h9

/-- A constant expression of the type is accepted. -/
theorem const_complete (hf : f.toFeatures = fullFeatures) (hx : f.extendedConst = true)
    {s : ModuleState} {e : ConstExpr} {ty : V} {os : List Operator} (hh : Hist f T s.m)
    (ho : ConstOps f.reader.toFeatures e os) {rs : List (BitVec 32)}
    (hrs : ∀ i, i ∈ rs ↔ i ∈ s.m.functionReferences ∨ Operator.idx .refFunc i ∈ os)
    (hown : s.owned = true ∨ ∀ i, Operator.idx .refFunc i ∉ os) (hn : ∀ o ∈ os, NoExact o)
    (h : ConstTy (ctxOf (listOf T) (setRefs s.m rs)) os ty) :
    ∃ s', checkConstExpr f bs T s e ty = .ok s' := by
  obtain ⟨⟨body, I', rfl, hs⟩, hc⟩ := h
  have hc' := seq_no_end (fun o ho => hc o (by simp [ho])) hs
  have hh' := hh.setRefs rs
  have hfull : Env.full (env f bs T (setRefs s.m rs)) = env f bs T (setRefs s.m rs) := by
    unfold Env.full env
    rw [hf]
  have hsit : Sit _ _ _ := hfull ▸ const_sit (bs := bs) hh' ty
  obtain ⟨B2, c2, h2, hsame, hok2, hle⟩ := complete_seq hs
    (fun o h => ⟨natural_const (hc' o h), hn o (by simp [h])⟩)
    (constBase ty) [] [] [] hsit (const_ok ty) ⟨[], .nil, .nil⟩
  obtain ⟨c3, h3, h4⟩ := pops_fwd (ins := [ty]) (ts := []) hh'.ctxOk hle
  cases h4.nil_inv
  obtain ⟨S, h5⟩ := const_end (hsit.same hsame) hsame.frs (by rw [hsame.kind]; nofun) hok2
    hsame.blockType h3
  obtain ⟨q, hq, hfin⟩ := ho
  obtain ⟨s', h6⟩ := const_runs hf hx s.m rs body e.reader.bytesRemaining e.reader s false
    (Op.newConstExpr ty) S q ⟨s.m.functionReferences, rfl, fun i hi => (hrs i).2 (.inl hi)⟩ hc'
    (fun i hi => ⟨hown.resolve_right fun h => h i (by simp [hi]),
      (hrs i).2 (.inr (by simp [hi]))⟩) rfl hq hfin (runOps_append' h2 (one_ok h5))
  refine ⟨s', ?_⟩
  unfold checkConstExpr
  rw [h6]
  rfl

end Verif.Valid
